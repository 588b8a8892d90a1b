import Verif.Lemmas.Below.End
import Verif.Lemmas.Below.FewParity
import Verif.Lemmas.Below.AllParity
import Verif.Lemmas.Shaped.Assemble
import Verif.Lemmas.Shaped.Operands
import Verif.Model.PlanarShaped
import Verif.Spec.Outline
import Verif.Lemmas.Shaped.Sides
import Verif.Properties.Oriented

/-!
# Results of the operations on polygons
-/

namespace Clipping

open Sweep

theorem inside_near {E : List Segment} (hp : ∀ e ∈ E, e.Proper) (hd : ∀ q, Even (degree E q)) {q : Point}
    (hq : q ∉ segsPts E) : ∃ δ > 0, ∀ z, Near δ q z → z ∉ segsPts E ∧ (Inside E z ↔ Inside E q) := by
  obtain ⟨δ, h0, h1⟩ := exists_near_off_all hp hq
  refine ⟨δ, h0, fun z hz => ⟨h1 z hz, ?_⟩⟩
  exact (inside_const hp hd (s := ⟨q, z⟩) fun r hr => h1 r (hz.path r hr)).symm

theorem inside_filter {l : List Polygon} {f : Polygon → Bool} {q : Point}
    (h : ∀ p ∈ l, f p = false → ¬ Inside p.edges q) :
    Inside ((l.filter f).flatMap Polygon.edges) q ↔ Inside (l.flatMap Polygon.edges) q := by
  induction l with
  | nil => rfl
  | cons p l ih =>
    have ih' := ih fun p' hp' => h p' (by simp [hp'])
    by_cases hf : f p = true
    · rw [List.filter_cons_of_pos hf, List.flatMap_cons, List.flatMap_cons, inside_append, inside_append, ih']
    · rw [List.filter_cons_of_neg hf, List.flatMap_cons, inside_append, ih']
      have := h p (by simp) (by simpa using hf)
      tauto

theorem ValidPolygon.even {p : Polygon} (h : ValidPolygon p) (q : Point) : Even (degree p.edges q) := by
  unfold Polygon.edges
  rw [degree_append]
  refine (h.border.even q).add ?_
  have hh := h.holes
  generalize p.holes = l at hh ⊢
  induction l with
  | nil => simp [degree]
  | cons c l ih =>
    rw [List.flatMap_cons, degree_append]
    exact ((hh c (by simp)).even q).add (ih fun c hc => hh c (by simp [hc]))

/-- Close to a point of a box with more than one point there are infinitely many points of the box. -/
theorem box_infinite {b : Box} {q z : Point} (hq : q ∈ b.pts) (hz : z ∈ b.pts) (hne : q ≠ z) {δ : ℚ} (hδ : 0 < δ) :
    ({r ∈ b.pts | Near δ q r}).Infinite := by
  set K : ℚ := 1 + |z.x - q.x| + |z.y - q.y| with hK
  have k1 : 0 < K := by have := abs_nonneg (z.x - q.x); have := abs_nonneg (z.y - q.y); linarith
  set c : ℚ := min 1 (δ / K) with hc
  have c0 : 0 < c := lt_min one_pos (div_pos hδ k1)
  have c1 : c ≤ 1 := min_le_left _ _
  have c2 : c * K ≤ δ := by
    have h1 : c ≤ δ / K := min_le_right _ _
    have h2 := div_mul_cancel₀ δ k1.ne'
    nlinarith
  set w : Point := ⟨q.x + c * (z.x - q.x), q.y + c * (z.y - q.y)⟩ with hw
  have hwz : w ∈ (Segment.mk q z).pts := ⟨c, c0.le, c1, by simp [hw], by simp [hw]⟩
  have hqw : q ≠ w := by
    intro e
    apply hne
    have e1 : c * (z.x - q.x) = 0 := by have := congrArg Point.x e; simp only [hw] at this; linarith
    have e2 : c * (z.y - q.y) = 0 := by have := congrArg Point.y e; simp only [hw] at this; linarith
    exact Point.ext' (by linarith [(mul_eq_zero.1 e1).resolve_left c0.ne']) (by linarith [(mul_eq_zero.1 e2).resolve_left c0.ne'])
  have near : Near δ q w := by
    have a1 := abs_nonneg (z.x - q.x)
    have a2 := abs_nonneg (z.y - q.y)
    constructor
    · simp only [hw, add_sub_cancel_left, abs_mul, abs_of_pos c0]; nlinarith
    · simp only [hw, add_sub_cancel_left, abs_mul, abs_of_pos c0]; nlinarith
  intro hf
  refine overlapping_of_finite_false (s := ⟨q, w⟩) hqw (hf.subset ?_)
  intro r hr
  exact ⟨box_convex hq (box_convex hq hz hwz) hr, near.path r hr⟩

variable {o : Orient} (ok : OrientOk o)

theorem two_points {ps : List Polygon} (hv : ∀ p ∈ ps, ValidPolygon p) {b : Box} (h : polygonsBox ps = .ok b) (q : Point) :
    ∃ z ∈ b.pts, q ≠ z := by
  obtain ⟨h1, -⟩ := polygonsBox_spec hv h
  cases ps with
  | nil => cases h
  | cons p l =>
    have hp := (hv p (by simp)).border
    have hm : ∀ i, vtx p.border i ∈ b.pts := by
      intro i
      refine h1 ⟨p, by simp, Or.inl ?_⟩
      have := hp.vertex_segs (vtx_mem hp.ne_nil i)
      show _ ∈ segsPts (p.border.edges ++ _)
      rw [segsPts_append]; exact Or.inl this
    by_cases hq : q = vtx p.border 0
    · exact ⟨vtx p.border 1, hm 1, hq ▸ (hp.cyc.proper 0 : vtx p.border 0 ≠ vtx p.border (0 + 1))⟩
    · exact ⟨_, hm 0, hq⟩

include ok

/-- A polygon which is not coupled with a box does not have interior points in it. -/
theorem coupledWithPolygon_interior {p : Polygon} (hp : ValidPolygon p) {b : Box} (hb : b.Nonempty)
    (hf : coupledWithPolygon o b p = false) {q z : Point} (hq : q ∈ b.pts) (hz : z ∈ b.pts) (hne : q ≠ z)
    (hn : q ∉ segsPts p.edges) : ¬ Inside p.edges q := by
  intro hi
  obtain ⟨δ, h0, h1⟩ := inside_near hp.noOverlap.1 hp.even hn
  refine box_infinite hq hz hne h0 ((coupledWithPolygon_false ok hp hb hf).subset ?_)
  rintro r ⟨r1, r2⟩
  obtain ⟨a1, a2⟩ := h1 r r2
  refine ⟨r1, Or.inr (a2.2 hi), fun c hc hr => a1 ?_⟩
  obtain ⟨s, hs, hrs⟩ := hr
  exact ⟨s, List.mem_append_right _ (List.mem_flatMap.2 ⟨c, hc, hs⟩), hrs⟩

/-- Dropping polygons which are not coupled with the box does not change the region in the box. -/
theorem toCoupledPolygons_inside {ps qs : List Polygon} (hv : ValidPolygons ps) (hw : ∀ p ∈ qs, ValidPolygon p) {b : Box}
    (hb : polygonsBox qs = .ok b) {q : Point} (hq : q ∈ b.pts) (hn : q ∉ segsPts (ps.flatMap Polygon.edges)) :
    Inside ((toCoupledPolygons o b ps).flatMap Polygon.edges) q ↔ Inside (ps.flatMap Polygon.edges) q := by
  obtain ⟨z, hz, hne⟩ := two_points hw hb q
  refine inside_filter fun p hp hf => ?_
  exact coupledWithPolygon_interior ok (hv.valid p hp) (polygonsBox_spec hw hb).2 hf hq hz hne
    fun h => hn (segsPts_flatMap.2 ⟨p, hp, h⟩)

omit ok in
theorem ValidPolygons.inside_box {ps : List Polygon} (hv : ValidPolygons ps) {b : Box} (hb : polygonsBox ps = .ok b)
    {q : Point} (hq : Inside (ps.flatMap Polygon.edges) q) : q ∈ b.pts := by
  refine (polygonsBox_spec hv.valid hb).1 ?_
  have : q ∈ regionPts (ps.flatMap polygonEdges) := by
    rw [hv.sameEdges.regionPts_eq]; exact Or.inr hq
  rw [hv.pts_eq] at this
  exact this

omit ok

theorem FewTouch.congr {E E' : List Segment} (h : SameEdges E E') (N : FewTouch E) : FewTouch E' := by
  have get : ∀ {A B : List Segment}, SameEdges A B → ∀ e ∈ A, ∃ e' ∈ B, e' = e ∨ e' = e.swap := by
    intro A B h e he
    obtain ⟨e', he', hn⟩ := List.mem_map.1 (h.mem_iff.1 (List.mem_map_of_mem he))
    refine ⟨e', he', ?_⟩
    have key : ∀ s : Segment, s.norm = s ∨ s.norm = s.swap := by
      intro s
      rcases s.lo_hi_cases with ⟨h1, h2, -⟩ | ⟨h1, h2, -⟩
      · left; unfold Segment.norm; rw [h1, h2]
      · right; unfold Segment.norm Segment.swap; rw [h1, h2]
    have sw : ∀ s : Segment, s.swap.swap = s := fun s => rfl
    rcases key e with k1 | k1 <;> rcases key e' with k2 | k2 <;> rw [k1, k2] at hn
    · exact Or.inl hn
    · right; rw [← hn, sw]
    · exact Or.inr hn
    · left; rw [← sw e', hn, sw]
  intro e he v hv u hu hvu hend
  obtain ⟨e', he', ee⟩ := get h.symm e he
  obtain ⟨u', hu', uu⟩ := get h.symm u hu
  have hv' : e'.IsEnd v := by
    rcases ee with rfl | rfl
    · exact hv
    · exact Segment.isEnd_swap.2 hv
  have hvu' : v ∈ u'.pts := by
    rcases uu with rfl | rfl
    · exact hvu
    · rw [Segment.swap_pts]; exact hvu
  have hend' : ¬ u'.IsEnd v := by
    rcases uu with rfl | rfl
    · exact hend
    · rw [Segment.isEnd_swap]; exact hend
  rcases N e' he' v hv' u' hu' hvu' hend' with hf | hdeg
  swap
  · right
    rw [← degree_norm, ← degree_perm h, degree_norm]
    exact hdeg
  obtain ⟨f, hf, h1, h2, h3⟩ := hf
  obtain ⟨f', hf', ff⟩ := get h f hf
  refine Or.inl ⟨f', hf', ?_, ?_, ?_⟩
  · rcases ff with rfl | rfl
    · exact h1
    · rw [Segment.swap_pts]; exact h1
  · rcases ff with rfl | rfl
    · exact h2
    · rw [← norm_lo, norm_swap, norm_lo]; exact h2
  · have e1 : f'.lo = f.lo := by
      rcases ff with rfl | rfl
      · rfl
      · rw [← norm_lo, norm_swap, norm_lo]
    rw [e1]
    rcases uu with rfl | rfl
    · exact h3
    · intro h0
      apply h3
      change cross u.stop u.start f.lo = 0
      rw [cross_swap, h0, neg_zero]

theorem degree_sublist {E E' : List Segment} (h : E.Sublist E') (q : Point) : degree E q ≤ degree E' q :=
  Nat.add_le_add (h.countP_le) (h.countP_le)

theorem FewTouchEach.sublist {P Q P' Q' : List Polygon} (h : FewTouchEach P Q) (hP : P'.Sublist P) (hQ : Q'.Sublist Q) :
    FewTouchEach P' Q' := by
  have hs : ∀ p ∈ P' ++ Q', p ∈ P ++ Q := (hP.append hQ).subset
  intro p hp e he v hv p' hp' u hu h1 h2
  exact (h p (hs p hp) e he v hv p' (hs p' hp') u hu h1 h2).imp_right
    fun hd => (degree_sublist ((hP.append hQ).flatMap _) v).trans hd

theorem FewTouchEach.fewTouch {P Q : List Polygon} (h : FewTouchEach P Q) :
    FewTouch (P.flatMap Polygon.edges ++ Q.flatMap Polygon.edges) := by
  rw [← List.flatMap_append]
  intro e he v hv u hu hvu hend
  obtain ⟨p, hp, he'⟩ := List.mem_flatMap.1 he
  obtain ⟨p', hp', hu'⟩ := List.mem_flatMap.1 hu
  refine (h p hp e he' v hv p' hp' u hu' hvu hend).imp_left ?_
  rintro ⟨f, hf, h1⟩
  refine ⟨f, List.mem_flatMap.2 ?_, h1⟩
  rcases List.mem_append.1 hf with hf | hf
  · exact ⟨p, hp, hf⟩
  · exact ⟨p', hp', hf⟩

/-- What `events_to_polygons` makes of a sweep of polygons with all contours bounding regions. -/
theorem boundarySweep_outlines {rule : ShapedRule} {op : Bool → Bool → Bool} (hr : RuleOk rule) (hop : RuleFor rule op) (tb : TieBreak)
    {xmax : Option ℚ} {P Q : List Polygon} (bP : IsBoundary (P.flatMap polygonEdges)) (bQ : IsBoundary (Q.flatMap polygonEdges))
    (sP : SameEdges (P.flatMap polygonEdges) (P.flatMap Polygon.edges))
    (sQ : SameEdges (Q.flatMap polygonEdges) (Q.flatMap Polygon.edges))
    (hst : StopOk op xmax (P.flatMap polygonEdges) (Q.flatMap polygonEdges)) :
    ∃ h events ps, holeySweep rule tb xmax P Q = .ok (h, events) ∧ eventsToPolygons h events = .ok ps ∧
      Outlines op (P.flatMap Polygon.edges) (Q.flatMap Polygon.edges) ps ∧ (∀ p ∈ ps, p.Oriented) ∧
      (FewTouch (P.flatMap Polygon.edges ++ Q.flatMap Polygon.edges) → ValidPolygons ps) := by
  obtain ⟨h, events, e, E⟩ := shapedSweep_end (isShaped_holey hr) hop tb xmax bP bQ hst
  change holeySweep rule tb xmax P Q = .ok (h, events) at e
  have bok := holey_belowOk hr bP bQ e E
  obtain ⟨ps, e', O⟩ := eventsToPolygons_outline E.selected bok
  have valid : FewTouch (P.flatMap Polygon.edges ++ Q.flatMap Polygon.edges) → ValidPolygons ps := by
    intro N
    have N' := N.congr (sP.symm.append sQ.symm)
    obtain ⟨ps', e'', -, V⟩ := eventsToPolygons_valid E.selected bok fun J ndJ hJ evenJ i hi Ks nd hK even hKJ => by
      have := below_parity hr bP bQ N' e E ndJ hJ evenJ hi nd hK even hKJ
      exact ⟨this.1, fun b hb _ => this.2 b hb⟩
    rw [e'] at e''
    cases e''
    exact V
  obtain ⟨ps', e'', sided, held⟩ := eventsToPolygons_sided E.selected bok fun i hi => by
    have := all_parity hr bP bQ e E hi
    exact ⟨this.1, fun b hb _ => this.2 b hb⟩
  rw [e'] at e''
  cases e''
  have B := E.isBoundaryOf.congr sP sQ
  refine ⟨h, events, ps, e, e', ⟨fun p hp => (O.border p hp).1, fun p hp c hc => (O.hole p hp c hc).1, O.noOverlap, ?_, ?_, sided, held⟩,
    ?_, valid⟩
  · rw [O.pts]
    rintro q ⟨t, ht, hq⟩
    obtain ⟨s, hs, hts⟩ := B.parts t ht
    exact ⟨s, hs, hts hq⟩
  · intro q hq
    rw [O.inside, B.inside q hq]
  · intro p hp
    obtain ⟨b1, b2⟩ := O.border p hp
    refine ⟨(contourOrientation_spec _ b1).1.1 b2, fun c hc => ?_⟩
    obtain ⟨c1, c2⟩ := O.hole p hp c hc
    exact (contourOrientation_spec _ c1).2.1 c2

/-- What `events_to_polygons` makes of a sweep of polygons. -/
theorem holeySweep_outlines {rule : ShapedRule} {op : Bool → Bool → Bool} (hr : RuleOk rule) (hop : RuleFor rule op) (tb : TieBreak)
    {xmax : Option ℚ} {P Q : List Polygon} (hP : ValidPolygons P) (hQ : ValidPolygons Q)
    (hst : StopOk op xmax (P.flatMap polygonEdges) (Q.flatMap polygonEdges)) :
    ∃ h events ps, holeySweep rule tb xmax P Q = .ok (h, events) ∧ eventsToPolygons h events = .ok ps ∧
      Outlines op (P.flatMap Polygon.edges) (Q.flatMap Polygon.edges) ps ∧ (∀ p ∈ ps, p.Oriented) ∧
      (FewTouch (P.flatMap Polygon.edges ++ Q.flatMap Polygon.edges) → ValidPolygons ps) :=
  boundarySweep_outlines hr hop tb hP.isBoundary hQ.isBoundary hP.sameEdges hQ.sameEdges hst

theorem unpackPolygons_polygons (ps : List Polygon) : (unpackPolygons ps).polygons = ps := by
  unfold unpackPolygons
  split <;> rfl

theorem unpackPolygons_isShaped (ps : List Polygon) : (unpackPolygons ps).IsShaped := by
  unfold unpackPolygons
  split <;> simp [Geometry.IsShaped]

theorem Outlines.mono {op op' : Bool → Bool → Bool} {A B A' B' : List Segment} {ps : List Polygon} (h : Outlines op A B ps)
    (hs : segsPts (A ++ B) ⊆ segsPts (A' ++ B'))
    (hc : ∀ q, q ∉ segsPts (A' ++ B') → (Combined op A B q ↔ Combined op' A' B' q)) : Outlines op' A' B' ps where
  border := h.border
  hole := h.hole
  noOverlap := h.noOverlap
  within := h.within.trans hs
  inside q hq := (h.inside q fun hh => hq (hs hh)).trans (hc q hq)
  sides := h.sides
  held := h.held

theorem flatMap_edges_sub {ps qs : List Polygon} (h : qs.Sublist ps) :
    segsPts (qs.flatMap Polygon.edges) ⊆ segsPts (ps.flatMap Polygon.edges) := by
  rintro q ⟨s, hs, hq⟩
  exact ⟨s, (h.flatMap _).subset hs, hq⟩

theorem segsPts_append_sub {A B A' B' : List Segment} (h : segsPts A ⊆ segsPts A') (h' : segsPts B ⊆ segsPts B') :
    segsPts (A ++ B) ⊆ segsPts (A' ++ B') := by
  rw [segsPts_append, segsPts_append]
  exact Set.union_subset_union h h'

theorem off_append {A B : List Segment} {q : Point} (h : q ∉ segsPts (A ++ B)) : q ∉ segsPts A ∧ q ∉ segsPts B := by
  rw [segsPts_append] at h
  exact ⟨fun g => h (Or.inl g), fun g => h (Or.inr g)⟩

theorem combined_and {A B : List Segment} {q : Point} : Combined (fun a b => a && b) A B q ↔ Inside A q ∧ Inside B q := by
  simp [Combined]

theorem combined_diff {A B : List Segment} {q : Point} : Combined (fun a b => a && !b) A B q ↔ Inside A q ∧ ¬ Inside B q := by
  simp [Combined]

theorem combined_or {A B : List Segment} {q : Point} : Combined (fun a b => a || b) A B q ↔ Inside A q ∨ Inside B q := by
  simp [Combined]

theorem combined_xor {A B : List Segment} {q : Point} : Combined xor A B q ↔ (Inside A q ↔ ¬ Inside B q) := by
  unfold Combined
  by_cases h1 : Inside A q <;> by_cases h2 : Inside B q <;> simp [h1, h2]

/-- operand itself -/
theorem ValidPolygons.outlines {op : Bool → Bool → Bool} {ps : List Polygon} (h : ValidPolygons ps) {A B : List Segment}
    (hs : segsPts (ps.flatMap Polygon.edges) ⊆ segsPts (A ++ B))
    (hc : ∀ q, q ∉ segsPts (A ++ B) → (Inside (ps.flatMap Polygon.edges) q ↔ Combined op A B q)) : Outlines op A B ps where
  border p hp := (h.valid p hp).border
  hole p hp := (h.valid p hp).holes
  noOverlap := h.noOverlap
  within := hs
  inside := hc
  sides := h.sided
  held p hp c hc := ⟨p, hp, (h.valid p hp).inside c hc⟩

theorem outlines_nil {op : Bool → Bool → Bool} {A B : List Segment}
    (hc : ∀ q, q ∉ segsPts (A ++ B) → ¬ Combined op A B q) : Outlines op A B [] where
  border := by simp
  hole := by simp
  noOverlap := ⟨by simp, List.Pairwise.nil⟩
  within := by rw [List.flatMap_nil, segsPts_nil]; exact Set.empty_subset _
  inside q hq := iff_of_false (inside_nil q) (hc q hq)
  sides := ⟨by simp, by simp⟩
  held := by simp

theorem validPolygons_nil : ValidPolygons [] := ⟨by simp, ⟨by simp, List.Pairwise.nil⟩, List.Pairwise.nil⟩

/-! ## The operations -/

theorem sortPolygons_perm (ps : List Polygon) : (sortPolygons ps).Perm ps := List.perm_insertionSort _ _

theorem flatMap_edges_perm {ps qs : List Polygon} (h : ps.Perm qs) :
    (ps.flatMap Polygon.edges).Perm (qs.flatMap Polygon.edges) := h.flatMap_right _

/-- Two operands whose boxes are disjoint, side by side. -/
theorem ValidPolygons.append {P Q : List Polygon} (hP : ValidPolygons P) (hQ : ValidPolygons Q) {bP bQ : Box}
    (eP : polygonsBox P = .ok bP) (eQ : polygonsBox Q = .ok bQ) (hd : disjointWith bP bQ = true) : ValidPolygons (P ++ Q) := by
  obtain ⟨sP, nP⟩ := polygonsBox_spec hP.valid eP
  obtain ⟨sQ, nQ⟩ := polygonsBox_spec hQ.valid eQ
  have dis := (disjointWith_iff bP bQ nP nQ).1.1 hd
  have key : ∀ p ∈ P, ∀ q ∈ Q, ∀ m, m ∈ regionPts p.edges → m ∉ regionPts q.edges := by
    intro p hp q hq m h1 h2
    exact dis m (sP ⟨p, hp, h1⟩) (sQ ⟨q, hq, h2⟩)
  refine ⟨?_, ?_, ?_⟩
  · intro p hp
    rcases List.mem_append.1 hp with h | h
    · exact hP.valid p h
    · exact hQ.valid p h
  · rw [List.flatMap_append]
    refine ⟨?_, List.pairwise_append.2 ⟨hP.noOverlap.2, hQ.noOverlap.2, ?_⟩⟩
    · intro e he
      rcases List.mem_append.1 he with h | h
      · exact hP.noOverlap.1 e h
      · exact hQ.noOverlap.1 e h
    · intro s hs t ht ho
      obtain ⟨p, hp, hs'⟩ := List.mem_flatMap.1 hs
      obtain ⟨q, hq, ht'⟩ := List.mem_flatMap.1 ht
      obtain ⟨m, -, -, m1, -, m2, -⟩ := ho
      exact key p hp q hq m (Or.inl ⟨s, hs', m1⟩) (Or.inl ⟨t, ht', m2⟩)
  · refine List.pairwise_append.2 ⟨hP.apart, hQ.apart, ?_⟩
    intro p hp q hq
    exact ⟨fun m h1 h2 h3 => key p hp q hq m h1 (Or.inr h3), fun m h1 h2 h3 => key p hp q hq m (Or.inr h3) h1⟩

theorem ValidPolygons.perm {ps qs : List Polygon} (h : ps.Perm qs) (hv : ValidPolygons ps) : ValidPolygons qs where
  valid p hp := hv.valid p (h.mem_iff.2 hp)
  noOverlap := hv.noOverlap.perm (flatMap_edges_perm h)
  apart := (h.pairwise_iff (fun {_ _} g => ⟨g.2, g.1⟩)).1 hv.apart

theorem isEmpty_false {l : List Polygon} (h : ¬ l.isEmpty = true) : l ≠ [] := by
  rintro rfl; exact h rfl

variable {a b : ShapedOperand} (ha : ShapedOk a) (hb : ShapedOk b)

include ha hb

theorem boxes_ok : ∃ ba bb, polygonsBox a.polygons = .ok ba ∧ polygonsBox b.polygons = .ok bb := by
  obtain ⟨ba, h1⟩ := polygonsBox_ok ha.ne
  obtain ⟨bb, h2⟩ := polygonsBox_ok hb.ne
  exact ⟨ba, bb, h1, h2⟩

theorem boxes_disjoint {ba bb : Box} (h1 : polygonsBox a.polygons = .ok ba) (h2 : polygonsBox b.polygons = .ok bb)
    (hd : disjointWith ba bb = true) {q : Point} (h3 : Inside (a.polygons.flatMap Polygon.edges) q) :
    ¬ Inside (b.polygons.flatMap Polygon.edges) q := fun h4 =>
  (disjointWith_iff ba bb (polygonsBox_spec ha.valid.valid h1).2 (polygonsBox_spec hb.valid.valid h2).2).1.1 hd q
    (ha.valid.inside_box h1 h3) (hb.valid.inside_box h2 h4)

include ok in
/-- The polygons which are coupled with the box of the other operand have the same common interior points. -/
theorem coupled_both {ba bb : Box} (h1 : polygonsBox a.polygons = .ok ba) (h2 : polygonsBox b.polygons = .ok bb) {q : Point}
    (hq : q ∉ segsPts (a.polygons.flatMap Polygon.edges ++ b.polygons.flatMap Polygon.edges)) :
    (Inside ((toCoupledPolygons o bb a.polygons).flatMap Polygon.edges) q ∧
      Inside ((toCoupledPolygons o ba b.polygons).flatMap Polygon.edges) q) ↔
    (Inside (a.polygons.flatMap Polygon.edges) q ∧ Inside (b.polygons.flatMap Polygon.edges) q) := by
  obtain ⟨q1, q2⟩ := off_append hq
  have sub : ∀ {b : Box} {ps : List Polygon}, ValidPolygons ps → ∀ {c : Box}, polygonsBox ps = .ok c →
      Inside ((toCoupledPolygons o b ps).flatMap Polygon.edges) q → q ∈ c.pts := by
    intro b ps hv c hc hi
    have hs := toCoupledPolygons_sub o b ps
    have hv' := hv.sublist hs
    have : q ∈ regionPts ((toCoupledPolygons o b ps).flatMap polygonEdges) := by
      rw [hv'.sameEdges.regionPts_eq]; exact Or.inr hi
    rw [hv'.pts_eq] at this
    obtain ⟨p, hp, hm⟩ := this
    exact (polygonsBox_spec hv.valid hc).1 ⟨p, hs.subset hp, hm⟩
  constructor
  · rintro ⟨g1, g2⟩
    have m1 := sub ha.valid h1 g1
    have m2 := sub hb.valid h2 g2
    exact ⟨(toCoupledPolygons_inside ok ha.valid hb.valid.valid h2 m2 q1).1 g1,
      (toCoupledPolygons_inside ok hb.valid ha.valid.valid h1 m1 q2).1 g2⟩
  · rintro ⟨g1, g2⟩
    have m1 := ha.valid.inside_box h1 g1
    have m2 := hb.valid.inside_box h2 g2
    exact ⟨(toCoupledPolygons_inside ok ha.valid hb.valid.valid h2 m2 q1).2 g1,
      (toCoupledPolygons_inside ok hb.valid ha.valid.valid h1 m1 q2).2 g2⟩

include ok in
theorem holeyIntersection_outlines (tb : TieBreak) : ∃ g, holeyIntersection o tb a b = .ok g ∧ g.IsShaped ∧
    Outlines (fun a b => a && b) (a.polygons.flatMap Polygon.edges) (b.polygons.flatMap Polygon.edges) g.polygons ∧
    (∀ p ∈ g.polygons, p.Oriented) ∧ (FewTouchEach a.polygons b.polygons → ValidPolygons g.polygons) := by
  obtain ⟨ba, bb, h1, h2⟩ := boxes_ok ha hb
  unfold holeyIntersection
  rw [h1, h2]
  simp only [bind, Except.bind, pure, Except.pure]
  by_cases hd : disjointWith ba bb = true
  · rw [if_pos hd]
    refine ⟨_, rfl, trivial, outlines_nil ?_, by simp [Geometry.polygons], fun _ => validPolygons_nil⟩
    intro q _
    rw [combined_and]
    rintro ⟨g1, g2⟩
    exact boxes_disjoint ha hb h1 h2 hd g1 g2
  · rw [if_neg hd]
    have key := fun q hq => coupled_both ok ha hb h1 h2 (q := q) hq
    by_cases e1 : (toCoupledPolygons o bb a.polygons).isEmpty = true
    · rw [if_pos e1]
      refine ⟨_, rfl, trivial, outlines_nil ?_, by simp [Geometry.polygons], fun _ => validPolygons_nil⟩
      intro q hq
      rw [combined_and, ← key q hq, List.isEmpty_iff.1 e1]
      exact fun h => inside_nil q h.1
    · rw [if_neg e1]
      by_cases e2 : (toCoupledPolygons o ba b.polygons).isEmpty = true
      · rw [if_pos e2]
        refine ⟨_, rfl, trivial, outlines_nil ?_, by simp [Geometry.polygons], fun _ => validPolygons_nil⟩
        intro q hq
        rw [combined_and, ← key q hq, List.isEmpty_iff.1 e2]
        exact fun h => inside_nil q h.2
      · rw [if_neg e2]
        have s1 := toCoupledPolygons_sub o bb a.polygons
        have s2 := toCoupledPolygons_sub o ba b.polygons
        have v1 := ha.valid.sublist s1
        have v2 := hb.valid.sublist s2
        obtain ⟨n₁, x₁, g₁⟩ := polygonsMaxX_spec v1.valid (isEmpty_false e1)
        obtain ⟨n₂, x₂, g₂⟩ := polygonsMaxX_spec v2.valid (isEmpty_false e2)
        obtain ⟨h, events, ps, e, e', O, R, V⟩ := holeySweep_outlines intersectionRule_ok intersectionRule_for tb v1 v2
          (stopOk_min (v1.edges_x g₁) (v2.edges_x g₂) (by simp) (by simp))
        simp only [x₁, x₂, e, e']
        refine ⟨_, rfl, unpackPolygons_isShaped ps, ?_, ?_, ?_⟩
        · rw [unpackPolygons_polygons]
          refine O.mono (segsPts_append_sub (flatMap_edges_sub s1) (flatMap_edges_sub s2)) fun q hq => ?_
          rw [combined_and, combined_and, key q hq]
        · rw [unpackPolygons_polygons]; exact R
        · rw [unpackPolygons_polygons]; exact fun N => V (N.sublist s1 s2).fewTouch

include ok in
theorem holeyDifference_outlines (tb : TieBreak) (va : a.value.polygons = a.polygons) (sa : a.value.IsShaped) :
    ∃ g, holeyDifference o tb a b = .ok g ∧ g.IsShaped ∧
    Outlines (fun a b => a && !b) (a.polygons.flatMap Polygon.edges) (b.polygons.flatMap Polygon.edges) g.polygons ∧
    (g = a.value ∨ ∀ p ∈ g.polygons, p.Oriented) ∧ (FewTouchEach a.polygons b.polygons → ValidPolygons g.polygons) := by
  obtain ⟨ba, bb, h1, h2⟩ := boxes_ok ha hb
  unfold holeyDifference
  rw [h1, h2]
  simp only [bind, Except.bind, pure, Except.pure]
  have value : (∀ q, q ∉ segsPts (a.polygons.flatMap Polygon.edges ++ b.polygons.flatMap Polygon.edges) →
      Inside (a.polygons.flatMap Polygon.edges) q → ¬ Inside (b.polygons.flatMap Polygon.edges) q) →
      Outlines (fun a b => a && !b) (a.polygons.flatMap Polygon.edges) (b.polygons.flatMap Polygon.edges) a.value.polygons := by
    intro hk
    rw [va]
    refine ha.valid.outlines ?_ ?_
    · rw [segsPts_append]; exact Set.subset_union_left
    · intro q hq
      rw [combined_diff]
      exact ⟨fun h => ⟨h, hk q hq h⟩, fun h => h.1⟩
  by_cases hd : disjointWith ba bb = true
  · rw [if_pos hd]
    exact ⟨_, rfl, sa, value fun q _ h => boxes_disjoint ha hb h1 h2 hd h, Or.inl rfl, fun _ => va ▸ ha.valid⟩
  · rw [if_neg hd]
    have key : ∀ q, q ∉ segsPts (a.polygons.flatMap Polygon.edges ++ b.polygons.flatMap Polygon.edges) →
        Inside (a.polygons.flatMap Polygon.edges) q → (Inside ((toCoupledPolygons o ba b.polygons).flatMap Polygon.edges) q ↔
          Inside (b.polygons.flatMap Polygon.edges) q) := fun q hq hi =>
      toCoupledPolygons_inside ok hb.valid ha.valid.valid h1 (ha.valid.inside_box h1 hi) (off_append hq).2
    by_cases e2 : (toCoupledPolygons o ba b.polygons).isEmpty = true
    · rw [if_pos e2]
      refine ⟨_, rfl, sa, value fun q hq h => ?_, Or.inl rfl, fun _ => va ▸ ha.valid⟩
      rw [← key q hq h, List.isEmpty_iff.1 e2]
      exact inside_nil q
    · rw [if_neg e2]
      have s2 := toCoupledPolygons_sub o ba b.polygons
      have v2 := hb.valid.sublist s2
      obtain ⟨n₁, x₁, g₁⟩ := polygonsMaxX_spec ha.valid.valid ha.ne
      obtain ⟨h, events, ps, e, e', O, R, V⟩ := holeySweep_outlines differenceRule_ok differenceRule_for tb ha.valid v2
        (stopOk_first (ha.valid.edges_x g₁) (by simp))
      simp only [x₁, e, e']
      refine ⟨_, rfl, unpackPolygons_isShaped ps, ?_, Or.inr ?_, ?_⟩
      · rw [unpackPolygons_polygons]
        refine O.mono (segsPts_append_sub subset_rfl (flatMap_edges_sub s2)) fun q hq => ?_
        rw [combined_diff, combined_diff]
        exact ⟨fun h => ⟨h.1, fun h' => h.2 ((key q hq h.1).2 h')⟩, fun h => ⟨h.1, fun h' => h.2 ((key q hq h.1).1 h')⟩⟩
      · rw [unpackPolygons_polygons]; exact R
      · rw [unpackPolygons_polygons]; exact fun N => V (N.sublist (List.Sublist.refl _) s2).fewTouch

theorem beside_outlines {op : Bool → Bool → Bool} {ba bb : Box} (h1 : polygonsBox a.polygons = .ok ba)
    (h2 : polygonsBox b.polygons = .ok bb) (hd : disjointWith ba bb = true)
    (hc : ∀ A B q, (Inside A q → ¬ Inside B q) → (Combined op A B q ↔ Inside A q ∨ Inside B q)) :
    Outlines op (a.polygons.flatMap Polygon.edges) (b.polygons.flatMap Polygon.edges)
      (sortPolygons (a.polygons ++ b.polygons)) ∧ ValidPolygons (sortPolygons (a.polygons ++ b.polygons)) := by
  have hv := ha.valid.append hb.valid h1 h2 hd
  have perm := sortPolygons_perm (a.polygons ++ b.polygons)
  have hv' := hv.perm perm.symm
  refine ⟨hv'.outlines ?_ ?_, hv'⟩
  · rw [segsPts_perm (flatMap_edges_perm perm), List.flatMap_append]
  · intro q hq
    rw [inside_perm (flatMap_edges_perm perm), List.flatMap_append, inside_append,
      hc _ _ _ (fun h => boxes_disjoint ha hb h1 h2 hd h)]
    have := fun h => boxes_disjoint ha hb h1 h2 hd (q := q) h
    tauto

theorem holeySymmetricDifference_outlines (tb : TieBreak) : ∃ g, holeySymmetricDifference tb a b = .ok g ∧ g.IsShaped ∧
    Outlines xor (a.polygons.flatMap Polygon.edges) (b.polygons.flatMap Polygon.edges) g.polygons ∧
    (g.polygons.Perm (a.polygons ++ b.polygons) ∨ ∀ p ∈ g.polygons, p.Oriented) ∧
    (FewTouch (a.polygons.flatMap Polygon.edges ++ b.polygons.flatMap Polygon.edges) → ValidPolygons g.polygons) := by
  obtain ⟨ba, bb, h1, h2⟩ := boxes_ok ha hb
  unfold holeySymmetricDifference
  rw [h1, h2]
  simp only [bind, Except.bind, pure, Except.pure]
  by_cases hd : disjointWith ba bb = true
  · rw [if_pos hd]
    have hv := (ha.valid.append hb.valid h1 h2 hd).perm (sortPolygons_perm _).symm
    refine ⟨_, rfl, ?_, (beside_outlines ha hb h1 h2 hd ?_).1, Or.inl (sortPolygons_perm _), fun _ => hv⟩
    · intro he
      have := (sortPolygons_perm (a.polygons ++ b.polygons)).length_eq
      rw [he] at this
      have h0 := List.length_pos_of_ne_nil ha.ne
      rw [List.length_append, List.length_nil] at this
      omega
    · intro A B q h
      rw [combined_xor]; tauto
  · rw [if_neg hd]
    obtain ⟨h, events, ps, e, e', O, R, V⟩ := holeySweep_outlines symmetricDifferenceRule_ok symmetricDifferenceRule_for tb
      ha.valid hb.valid (stopOk_none _ _ _)
    simp only [e, e']
    refine ⟨_, rfl, unpackPolygons_isShaped ps, ?_, Or.inr ?_, ?_⟩
    · rw [unpackPolygons_polygons]; exact O
    · rw [unpackPolygons_polygons]; exact R
    · rw [unpackPolygons_polygons]; exact V

theorem holeyUnion_outlines (tb : TieBreak) : ∃ g, holeyUnion tb a b = .ok g ∧ g.IsShaped ∧
    Outlines (fun a b => a || b) (a.polygons.flatMap Polygon.edges) (b.polygons.flatMap Polygon.edges) g.polygons ∧
    (g.polygons.Perm (a.polygons ++ b.polygons) ∨ ∀ p ∈ g.polygons, p.Oriented) ∧
    (FewTouch (a.polygons.flatMap Polygon.edges ++ b.polygons.flatMap Polygon.edges) → ValidPolygons g.polygons) := by
  obtain ⟨ba, bb, h1, h2⟩ := boxes_ok ha hb
  unfold holeyUnion
  rw [h1, h2]
  simp only [bind, Except.bind, pure, Except.pure]
  by_cases hd : disjointWith ba bb = true
  · rw [if_pos hd]
    have hv := (ha.valid.append hb.valid h1 h2 hd).perm (sortPolygons_perm _).symm
    refine ⟨_, rfl, ?_, (beside_outlines ha hb h1 h2 hd ?_).1, Or.inl (sortPolygons_perm _), fun _ => hv⟩
    · intro he
      have := (sortPolygons_perm (a.polygons ++ b.polygons)).length_eq
      rw [he] at this
      have h0 := List.length_pos_of_ne_nil ha.ne
      rw [List.length_append, List.length_nil] at this
      omega
    · intro A B q h
      rw [combined_or]
  · rw [if_neg hd]
    obtain ⟨h, events, ps, e, e', O, R, V⟩ := holeySweep_outlines unionRule_ok unionRule_for tb
      ha.valid hb.valid (stopOk_none _ _ _)
    simp only [e, e']
    refine ⟨_, rfl, unpackPolygons_isShaped ps, ?_, Or.inr ?_, ?_⟩
    · rw [unpackPolygons_polygons]; exact O
    · rw [unpackPolygons_polygons]; exact R
    · rw [unpackPolygons_polygons]; exact V

end Clipping

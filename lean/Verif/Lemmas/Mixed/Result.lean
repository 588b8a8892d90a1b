import Verif.Lemmas.Mixed.Complete
import Verif.Lemmas.Coupled

/-!
# Results of the operations on a linear and a shaped operand
-/

namespace Clipping

open Sweep

/-- Shaped operand: at least one polygon, all valid. -/
structure ShapedOk (o : ShapedOperand) : Prop where
  ne : o.polygons ≠ []
  valid : ValidPolygons o.polygons
  pts : o.value.pts = {m | ∃ p ∈ o.polygons, m ∈ p.pts}

theorem polygon_pts_eq (p : Polygon) : p.pts = regionPts p.edges := rfl

theorem join_left' (a b : Box) : a.pts ⊆ (a.join b).pts := by
  rintro q ⟨h1, h2, h3, h4⟩
  exact ⟨(min_le_left _ _).trans h1, h2.trans (le_max_left _ _), (min_le_left _ _).trans h3,
    h4.trans (le_max_left _ _)⟩

theorem join_right' (a b : Box) : b.pts ⊆ (a.join b).pts := by
  rintro q ⟨h1, h2, h3, h4⟩
  exact ⟨(min_le_right _ _).trans h1, h2.trans (le_max_right _ _), (min_le_right _ _).trans h3,
    h4.trans (le_max_right _ _)⟩

theorem foldBorders_sub : ∀ (l : List Polygon) (b : Box),
    b.pts ⊆ (l.foldl (fun b q => b.join (contourBox q.border)) b).pts ∧
      ∀ p ∈ l, (contourBox p.border).pts ⊆ (l.foldl (fun b q => b.join (contourBox q.border)) b).pts := by
  intro l
  induction l with
  | nil => intro b; exact ⟨subset_rfl, by simp⟩
  | cons q l ih =>
    intro b
    obtain ⟨h1, h2⟩ := ih (b.join (contourBox q.border))
    refine ⟨(join_left' _ _).trans h1, ?_⟩
    intro p hp
    rcases List.mem_cons.1 hp with rfl | hp
    · exact (join_right' _ _).trans h1
    · exact h2 p hp

theorem ValidPolygon.pts_sub_box {p : Polygon} (h : ValidPolygon p) : p.pts ⊆ (contourBox p.border).pts :=
  h.region_sub_border.trans h.border.region_sub_box

theorem polygonsBox_ok {ps : List Polygon} (h : ps ≠ []) : ∃ b, polygonsBox ps = .ok b := by
  cases ps with
  | nil => exact absurd rfl h
  | cons p l => exact ⟨_, rfl⟩

/-- The box of polygons contains them. -/
theorem polygonsBox_spec {ps : List Polygon} (hv : ∀ p ∈ ps, ValidPolygon p) {b : Box}
    (h : polygonsBox ps = .ok b) : polysPts ps ⊆ b.pts ∧ b.Nonempty := by
  cases ps with
  | nil => cases h
  | cons p l =>
    cases h
    obtain ⟨h1, h2⟩ := foldBorders_sub l (contourBox p.border)
    have hs : ∀ q ∈ p :: l, q.pts ⊆ (l.foldl (fun b q => b.join (contourBox q.border)) (contourBox p.border)).pts := by
      intro q hq
      refine (hv q hq).pts_sub_box.trans ?_
      rcases List.mem_cons.1 hq with rfl | hq
      · exact h1
      · exact h2 q hq
    refine ⟨fun m ⟨q, hq, hm⟩ => hs q hq hm, ?_⟩
    obtain ⟨g1, g2, g3, g4⟩ := h1 (contourBox_mem (vtx_mem (hv p (by simp)).border.ne_nil 0))
    exact ⟨g1.trans g2, g3.trans g4⟩

theorem foldMax_spec : ∀ (l : List Point) (m : ℚ), m ≤ l.foldl (fun m q => max m q.x) m ∧
    ∀ q ∈ l, q.x ≤ l.foldl (fun m q => max m q.x) m := by
  intro l
  induction l with
  | nil => intro m; exact ⟨le_rfl, by simp⟩
  | cons p l ih =>
    intro m
    obtain ⟨h1, h2⟩ := ih (max m p.x)
    refine ⟨(le_max_left _ _).trans h1, ?_⟩
    intro q hq
    rcases List.mem_cons.1 hq with rfl | hq
    · exact (le_max_right _ _).trans h1
    · exact h2 q hq

/-- The greatest abscissa of polygons. -/
theorem polygonsMaxX_spec {ps : List Polygon} (hv : ∀ p ∈ ps, ValidPolygon p) (hne : ps ≠ []) :
    ∃ m, polygonsMaxX ps = .ok m ∧ ∀ q ∈ polysPts ps, q.x ≤ m := by
  have key : ∃ m, polygonsMaxX ps = .ok m ∧ ∀ p ∈ ps, ∀ v ∈ p.border.vertices, v.x ≤ m := by
    unfold polygonsMaxX
    have hm : ∀ v, v ∈ (ps.flatMap fun polygon => polygon.border.vertices) ↔ ∃ p ∈ ps, v ∈ p.border.vertices := by
      intro v; simp
    cases e : ps.flatMap fun polygon => polygon.border.vertices with
    | nil =>
      obtain ⟨p, hp⟩ := List.exists_mem_of_ne_nil _ hne
      have := (hm _).2 ⟨p, hp, vtx_mem (hv p hp).border.ne_nil 0⟩
      rw [e] at this; cases this
    | cons v l =>
      refine ⟨_, rfl, ?_⟩
      intro p hp w hw
      have := (hm w).2 ⟨p, hp, hw⟩
      rw [e] at this
      obtain ⟨h1, h2⟩ := foldMax_spec l v.x
      rcases List.mem_cons.1 this with rfl | h
      · exact h1
      · exact h2 w h
  obtain ⟨m, e, h⟩ := key
  refine ⟨m, e, ?_⟩
  rintro q ⟨p, hp, hq⟩
  have hb := (hv p hp).border
  have hqb := (hv p hp).pts_sub_box hq
  -- a box which ends at `m` contains all vertices
  set B := contourBox p.border
  have : isSubsetOf B ⟨B.minX, m, B.minY, B.maxY⟩ = true := contourBox_sub hb.ne_nil (by
    intro v hv
    obtain ⟨h1, -, h3, h4⟩ := contourBox_mem hv
    exact ⟨h1, h p hp v hv, h3, h4⟩)
  rw [isSubsetOf_iff _ _ hb.box_nonempty] at this
  exact (this hqb).2.1

/-- Polygons which are not kept have no point in the box. -/
theorem toIntersectingPolygons_pts {o : Orient} (ok : OrientOk o) {ps : List Polygon} (hv : ValidPolygons ps) {b : Box}
    (hb : b.Nonempty) : polysPts (toIntersectingPolygons o b ps) ∩ b.pts = polysPts ps ∩ b.pts := by
  unfold toIntersectingPolygons
  ext q
  constructor
  · rintro ⟨⟨p, hp, hq⟩, h⟩
    exact ⟨⟨p, (List.mem_filter.1 hp).1, hq⟩, h⟩
  · rintro ⟨⟨p, hp, hq⟩, h⟩
    refine ⟨⟨p, List.mem_filter.2 ⟨hp, ?_⟩, hq⟩, h⟩
    rw [intersectsWithPolygon_spec ok (hv.valid p hp) hb]
    exact ⟨q, h, hq⟩

theorem toIntersectingPolygons_sub (o : Orient) (b : Box) (ps : List Polygon) :
    (toIntersectingPolygons o b ps).Sublist ps := List.filter_sublist

theorem toCoupledPolygons_sub (o : Orient) (b : Box) (ps : List Polygon) :
    (toCoupledPolygons o b ps).Sublist ps := List.filter_sublist

/-- Points of the polygons which are not kept, apart from points on holes. -/
theorem toCoupledPolygons_finite {o : Orient} (ok : OrientOk o) {ps : List Polygon} (hv : ValidPolygons ps) {b : Box}
    (hb : b.Nonempty) : {q ∈ b.pts | ∃ p ∈ ps, p ∉ toCoupledPolygons o b ps ∧ q ∈ p.pts ∧
      ∀ c ∈ p.holes, q ∉ segsPts c.edges}.Finite := by
  have : {q ∈ b.pts | ∃ p ∈ ps, p ∉ toCoupledPolygons o b ps ∧ q ∈ p.pts ∧ ∀ c ∈ p.holes, q ∉ segsPts c.edges} ⊆
      ⋃ p ∈ {p | p ∈ ps ∧ coupledWithPolygon o b p = false},
        {q ∈ b.pts | q ∈ regionPts p.edges ∧ ∀ c ∈ p.holes, q ∉ segsPts c.edges} := by
    rintro q ⟨h, p, hp, hn, hq, hh⟩
    rw [Set.mem_iUnion₂]
    refine ⟨p, ⟨hp, ?_⟩, h, hq, hh⟩
    by_contra hc
    exact hn (List.mem_filter.2 ⟨hp, by simpa using hc⟩)
  refine Set.Finite.subset (Set.Finite.biUnion ?_ ?_) this
  · exact (List.finite_toSet ps).subset fun s hs => hs.1
  · rintro p ⟨hp, hf⟩
    exact coupledWithPolygon_false ok (hv.valid p hp) hb hf

theorem shaped_disjoint {a : List Segment} {ps : List Polygon} (hv : ∀ p ∈ ps, ValidPolygon p) {ba bb : Box}
    (ha : boxOf a = .ok ba) (hb : polygonsBox ps = .ok bb)
    (h : disjointWith ba bb = true) : ∀ q, q ∈ segsPts a → q ∉ polysPts ps := by
  obtain ⟨h1, n1⟩ := boxOf_spec ha
  obtain ⟨h2, n2⟩ := polygonsBox_spec hv hb
  have := (disjointWith_iff ba bb n1 n2).1.1 h
  intro q hq hq'
  exact this q (h1 hq) (h2 hq')

theorem validSegments_nil : ValidSegments [] := ⟨by simp, List.Pairwise.nil⟩

theorem leftsOf_nodup {log : List (Ev × ℕ)} {h : Heap MixedData} (nd : (log.map Prod.fst).Nodup)
    (pr : ∀ x ∈ log, x.2 = h.primary x.1) : (leftsOf log).Nodup := by
  have : leftsOf log = (log.map Prod.fst).filterMap fun e => match e with | .left i => some i | .right _ => none := by
    unfold leftsOf
    rw [List.filterMap_map]
    apply List.filterMap_congr
    rintro ⟨e, i⟩ hx
    have := pr _ hx
    cases e with
    | left k => simp only [Heap.primary] at this; simp [Heap.isLeft, this]
    | right k => simp [Heap.isLeft]
  rw [this]
  refine nd.filterMap ?_
  intro e f i he hf
  cases e <;> cases f <;> simp_all

theorem isEnd_of_sub {s x : Segment} (h : s.pts ⊆ x.pts) {p : Point} (hp : p ∈ s.pts) (he : x.IsEnd p) :
    s.IsEnd p := by
  rw [Segment.isEnd_iff] at he ⊢
  rcases he with rfl | rfl
  · exact Or.inl (le_antisymm (Segment.lo_le_of_mem (h s.lo_mem)) (Segment.lo_le_of_mem hp))
  · exact Or.inr (le_antisymm (Segment.le_hi_of_mem hp) (Segment.le_hi_of_mem (h s.hi_mem)))

theorem ValidSegments.of_ne {l : List Segment} (h : ValidSegments l) {s t : Segment} (hs : s ∈ l) (ht : t ∈ l)
    (hne : s ≠ t) : ¬ Overlapping s t ∧ ¬ Crossing s t := by
  have : Std.Symm (fun s t : Segment => s ≠ t → ¬ Overlapping s t ∧ ¬ Crossing s t) :=
    ⟨fun s t g hts => ⟨fun ho => (g hts.symm).1 (overlapping_symm ho),
      fun ⟨p, h1, h2, h3, h4⟩ => (g hts.symm).2 ⟨p, h2, h1, h4, h3⟩⟩⟩
  exact (List.Pairwise.forall_of_forall (R := fun s t => s ≠ t → ¬ Overlapping s t ∧ ¬ Crossing s t)
    (fun s _ hss => absurd rfl hss)
    (List.Pairwise.imp (fun {s t} (g : ¬ Overlapping s t ∧ ¬ Crossing s t) (_ : s ≠ t) => g) h.2) hs ht) hne

/-- Kept and separated segments together do not cross when the operand's segments do not. -/
theorem MixedEnd.valid_append {g : Bool → Bool} {h : Heap MixedData} {log : List (Ev × ℕ)} {stop : Point → Bool}
    {L E rest : List Segment} (M : MixedEnd g h log stop L E) {is : List ℕ} (nd : is.Nodup)
    (his : ∀ i ∈ is, (h.lefts i).data.fromResult = true → i ∈ rightsOf log ∧ h.first i = true)
    (hr : ValidSegments rest) (hc : ∀ s ∈ L, ∀ t ∈ rest, ¬ Overlapping s t ∧ ¬ Crossing s t) :
    ValidSegments (resultSegments h is ++ rest) := by
  have V := M.valid nd his
  refine ⟨?_, ?_⟩
  · intro s hs
    rcases List.mem_append.1 hs with hs | hs
    · exact V.1 s hs
    · exact hr.1 s hs
  · refine List.pairwise_append.2 ⟨V.2, hr.2, ?_⟩
    intro s hs t ht
    unfold resultSegments at hs
    obtain ⟨i, hi, rfl⟩ := List.mem_map.1 hs
    obtain ⟨h1, h2⟩ := List.mem_filter.1 hi
    obtain ⟨h3, h4⟩ := his i h1 h2
    obtain ⟨x, hx, e, hsub⟩ := M.fin.par i (M.fin.bound i h3)
    rw [h4] at e
    have hxL : x.1 ∈ L := by
      unfold marked at hx
      rcases List.mem_append.1 hx with hx | hx
      · obtain ⟨u, hu, rfl⟩ := List.mem_map.1 hx; exact hu
      · obtain ⟨u, hu, rfl⟩ := List.mem_map.1 hx; cases e
    obtain ⟨c1, c2⟩ := hc x.1 hxL t ht
    refine ⟨?_, ?_⟩
    · rintro ⟨p, q, hne, a1, a2, a3, a4⟩
      exact c1 ⟨p, q, hne, hsub a1, hsub a2, a3, a4⟩
    · rintro ⟨p, a1, a2, a3, a4⟩
      refine c2 ⟨p, hsub a1, a2, fun he => a3 ?_, a4⟩
      exact isEnd_of_sub hsub a1 he

section ops
variable {o : Orient} (ok : OrientOk o) (tb : TieBreak) {l : LinearOperand} {s : ShapedOperand} (k₁ : OperandOk l)
  (k₂ : ShapedOk s)
include ok k₁ k₂

/-- `Difference.compute` -/
theorem mixedDifference_result : ∃ g, mixedDifference o tb l s = .ok g ∧
    segsPts l.segments \ polysPts s.polygons ⊆ g.pts ∧ g.pts ⊆ segsPts l.segments ∧
    ((∀ p ∈ s.polygons, ∀ c ∈ p.holes, (segsPts l.segments ∩ segsPts c.edges).Finite) →
      (g.pts ∩ polysPts s.polygons).Finite) ∧
    (g = l.value ∨ ∃ r, g = unpackSegments r ∧ ValidSegments r) := by
  obtain ⟨b₁, hb₁⟩ := boxOf_ok k₁.ne
  obtain ⟨b₂, hb₂⟩ := polygonsBox_ok k₂.ne
  obtain ⟨i₁, n₁⟩ := boxOf_spec hb₁
  unfold mixedDifference
  rw [hb₁, hb₂]
  simp only [bind, Except.bind, pure, Except.pure]
  by_cases hd : disjointWith b₁ b₂ = true
  · rw [if_pos hd]
    refine ⟨_, rfl, ?_, ?_, ?_, Or.inl rfl⟩
    · rw [k₁.pts]; exact Set.sdiff_subset
    · rw [k₁.pts]
    · intro _
      rw [k₁.pts]
      have := shaped_disjoint k₂.valid.valid hb₁ hb₂ hd
      exact (Set.finite_empty).subset fun q hq => this q hq.1 hq.2
  rw [if_neg hd]
  have hfin := toCoupledPolygons_finite ok k₂.valid n₁
  have hhol : (∀ p ∈ s.polygons, ∀ c ∈ p.holes, (segsPts l.segments ∩ segsPts c.edges).Finite) →
      ((segsPts l.segments ∩ polysPts s.polygons) \ polysPts (toCoupledPolygons o b₁ s.polygons)).Finite := by
    intro hh
    have hF : (⋃ p ∈ {p | p ∈ s.polygons}, ⋃ c ∈ {c | c ∈ p.holes}, segsPts l.segments ∩ segsPts c.edges).Finite := by
      refine Set.Finite.biUnion (List.finite_toSet _) fun p hp => Set.Finite.biUnion (List.finite_toSet _) fun c hc => ?_
      exact hh p hp c hc
    refine (hfin.union hF).subset ?_
    rintro q ⟨⟨h1, p, hp, h2⟩, h3⟩
    by_cases hc : ∀ c ∈ p.holes, q ∉ segsPts c.edges
    · exact Or.inl ⟨i₁ h1, p, hp, fun hk => h3 ⟨p, hk, h2⟩, h2, hc⟩
    · push Not at hc
      obtain ⟨c, hc, hq⟩ := hc
      right
      simp only [Set.mem_iUnion]
      exact ⟨p, hp, c, hc, h1, hq⟩
  by_cases he : (toCoupledPolygons o b₁ s.polygons).isEmpty = true
  · rw [if_pos he]
    refine ⟨_, rfl, ?_, ?_, ?_, Or.inl rfl⟩
    · rw [k₁.pts]; exact Set.sdiff_subset
    · rw [k₁.pts]
    · intro hc
      rw [k₁.pts]
      refine (hhol hc).subset ?_
      rintro q ⟨h1, h2⟩
      refine ⟨⟨h1, h2⟩, ?_⟩
      rw [List.isEmpty_iff.1 he]
      rintro ⟨p, hp, -⟩
      cases hp
  rw [if_neg he]
  obtain ⟨m, hm⟩ := maxXOf_ok k₁.ne
  rw [hm]
  have vs := k₂.valid.sublist (toCoupledPolygons_sub o b₁ s.polygons)
  have hE := vs.isBoundary
  obtain ⟨h, log, e, M⟩ := mixedSweep_end (sel := selectOutside) (g := id) (fun _ _ => rfl) tb (some m) k₁.no hE
  dsimp only
  rw [e]
  dsimp only
  have hall : ∀ i < h.count, h.first i = true → i ∈ rightsOf log := by
    intro i hi hf
    rw [M.fin.done i hi]
    have : h.stop i ∈ segsPts l.segments := M.fin.mem_left.2 ⟨i, hi, hf, (h.segment i).stop_mem⟩
    simp only [stopAt, decide_eq_false_iff_not, not_lt]
    exact maxXOf_spec hm this
  have hlog : ∀ i ∈ rightsOf log, Ev.left i ∈ log.map Prod.fst := fun i hi => M.left_of_right (stopAt_mono _) hi
  have D := M.difference hE hall (is := rightsOf log) (fun i _ => Iff.rfl) hlog
  rw [vs.pts_eq] at D
  have sub : polysPts (toCoupledPolygons o b₁ s.polygons) ⊆ polysPts s.polygons :=
    fun q ⟨p, hp, hq⟩ => ⟨p, (toCoupledPolygons_sub o b₁ s.polygons).subset hp, hq⟩
  refine ⟨_, rfl, ?_, ?_, ?_, Or.inr ⟨_, rfl, ?_⟩⟩
  · rw [unpackSegments_pts]
    exact fun q hq => D.covers ⟨hq.1, fun h => hq.2 (sub h)⟩
  · rw [unpackSegments_pts]; exact D.within
  · intro hc
    rw [unpackSegments_pts]
    refine (D.finite.union (hhol hc)).subset ?_
    rintro q ⟨h1, h2⟩
    by_cases hq : q ∈ polysPts (toCoupledPolygons o b₁ s.polygons)
    · exact Or.inl ⟨h1, hq⟩
    · exact Or.inr ⟨⟨D.within h1, h2⟩, hq⟩
  · exact M.valid M.fin.nodup fun i hi hr => ⟨hi, M.first_of_result (hlog i hi) hr⟩

/-- Common part of `Intersection.compute` and `CompleteIntersection.compute`: the operands meet in what is kept. -/
theorem kept_iff {b₁ b₂ : Box} (hb₁ : boxOf l.segments = .ok b₁) (hb₂ : polygonsBox s.polygons = .ok b₂) (q : Point) :
    (q ∈ segsPts l.segments ∧ q ∈ polysPts s.polygons) ↔
    (q ∈ segsPts (toIntersectingSegments b₂ l.segments) ∧ q ∈ polysPts (toIntersectingPolygons o b₁ s.polygons)) := by
  obtain ⟨i₁, n₁⟩ := boxOf_spec hb₁
  obtain ⟨i₂, n₂⟩ := polygonsBox_spec k₂.valid.valid hb₂
  have e₁ := (toIntersectingSegments_spec b₂ l.segments n₂ k₁.no.1).2.1
  have e₂ := toIntersectingPolygons_pts ok k₂.valid n₁
  constructor
  · rintro ⟨h1, h2⟩
    have g1 : q ∈ segsPts l.segments ∩ b₂.pts := ⟨h1, i₂ h2⟩
    have g2 : q ∈ polysPts s.polygons ∩ b₁.pts := ⟨h2, i₁ h1⟩
    rw [← e₁] at g1
    rw [← e₂] at g2
    exact ⟨g1.1, g2.1⟩
  · rintro ⟨h1, p, hp, h2⟩
    exact ⟨segsPts_mono List.filter_sublist.subset h1, p, (toIntersectingPolygons_sub o b₁ _).subset hp, h2⟩

omit ok k₁ k₂ in
/-- The early exit comes after all events of one of the operands. -/
theorem exitOk {g : Bool → Bool} {h : Heap MixedData} {log : List (Ev × ℕ)} {L : List Segment} {ps : List Polygon}
    (vs : ValidPolygons ps) {m₁ m₂ : ℚ} (hm₁ : ∀ q ∈ segsPts L, q.x ≤ m₁) (hm₂ : ∀ q ∈ polysPts ps, q.x ≤ m₂)
    (M : MixedEnd g h log (stopAt (some (min m₁ m₂))) L (ps.flatMap polygonEdges)) : MixedEnd.ExitOk h log := by
  rcases min_choice m₁ m₂ with e | e <;> rw [e] at M
  · left
    intro k hk hf
    rw [M.fin.done k hk]
    simp only [stopAt, decide_eq_false_iff_not, not_lt]
    exact hm₁ _ (M.fin.mem_left.2 ⟨k, hk, hf, (h.segment k).stop_mem⟩)
  · right
    intro k hk hf
    rw [M.fin.done k hk]
    simp only [stopAt, decide_eq_false_iff_not, not_lt]
    refine hm₂ _ ?_
    have : h.stop k ∈ regionPts (ps.flatMap polygonEdges) :=
      Or.inl (M.fin.mem_right.2 ⟨k, hk, hf, (h.segment k).stop_mem⟩)
    rw [vs.pts_eq] at this
    exact this

/-- `Intersection.compute` -/
theorem mixedIntersection_result : ∃ r, mixedIntersection o tb l s = .ok (unpackSegments r) ∧
    IsIntersection (segsPts l.segments) (polysPts s.polygons) (segsPts r) ∧ ValidSegments r := by
  have hnone : (∀ q, ¬ (q ∈ segsPts l.segments ∧ q ∈ polysPts s.polygons)) →
      IsIntersection (segsPts l.segments) (polysPts s.polygons) (segsPts []) ∧ ValidSegments [] := by
    intro hn
    refine ⟨⟨by rw [segsPts_nil]; simp, Set.finite_empty.subset fun q hq => hn q hq.1⟩, validSegments_nil⟩
  obtain ⟨b₁, hb₁⟩ := boxOf_ok k₁.ne
  obtain ⟨b₂, hb₂⟩ := polygonsBox_ok k₂.ne
  have red := kept_iff ok k₁ k₂ hb₁ hb₂
  unfold mixedIntersection
  rw [hb₁, hb₂]
  simp only [bind, Except.bind, pure, Except.pure]
  by_cases hd : disjointWith b₁ b₂ = true
  · rw [if_pos hd]
    have := shaped_disjoint k₂.valid.valid hb₁ hb₂ hd
    exact ⟨[], rfl, hnone fun q hq => this q hq.1 hq.2⟩
  rw [if_neg hd]
  by_cases he₁ : (toIntersectingSegments b₂ l.segments).isEmpty = true
  · rw [if_pos he₁]
    refine ⟨[], rfl, hnone fun q hq => ?_⟩
    have := ((red q).1 hq).1
    rw [List.isEmpty_iff.1 he₁, segsPts_nil] at this
    exact this
  rw [if_neg he₁]
  by_cases he₂ : (toIntersectingPolygons o b₁ s.polygons).isEmpty = true
  · rw [if_pos he₂]
    refine ⟨[], rfl, hnone fun q hq => ?_⟩
    obtain ⟨p, hp, -⟩ := ((red q).1 hq).2
    rw [List.isEmpty_iff.1 he₂] at hp
    cases hp
  rw [if_neg he₂]
  have vs := k₂.valid.sublist (toIntersectingPolygons_sub o b₁ s.polygons)
  obtain ⟨m₁, hm₁⟩ := maxXOf_ok (l := toIntersectingSegments b₂ l.segments) (by
    intro h; exact he₁ (by rw [h]; rfl))
  obtain ⟨m₂, hm₂, hx₂⟩ := polygonsMaxX_spec vs.valid (by
    intro h; exact he₂ (by rw [h]; rfl))
  rw [hm₁, hm₂]
  have hE := vs.isBoundary
  have nL : NoOverlap (toIntersectingSegments b₂ l.segments) := k₁.no.sublist List.filter_sublist
  obtain ⟨h, log, e, M⟩ := mixedSweep_end (sel := selectInside) (g := not) (fun _ _ => rfl) tb
    (some (min m₁ m₂)) nL hE
  dsimp only
  rw [e]
  dsimp only
  have hx := exitOk vs (fun q hq => maxXOf_spec hm₁ hq) hx₂ M
  have D := M.intersection hE ⟨_, rfl⟩ hx (is := leftsOf log) fun i => mem_leftsOf M.prim
  rw [vs.pts_eq] at D
  refine ⟨_, rfl, ⟨fun q hq => ?_, D.finite.subset ?_⟩, ?_⟩
  · exact (red q).2 (D.within hq)
  · rintro q ⟨h1, h2⟩
    exact ⟨(red q).1 h1, h2⟩
  · refine M.valid (leftsOf_nodup M.nodup M.prim) fun i hi hr => ?_
    have hl := (mem_leftsOf M.prim).1 hi
    exact ⟨(M.selected_in hE hx hl hr).1, M.first_of_result hl hr⟩

/-- `CompleteIntersection.compute` -/
theorem mixedCompleteIntersection_result : ∃ ps r, mixedCompleteIntersection o tb l s =
      .ok (unpackLinearMix (unpackPoints ps) (unpackSegments r)) ∧
    (∀ q, (q ∈ ps ∨ q ∈ segsPts r) ↔ q ∈ segsPts l.segments ∧ q ∈ polysPts s.polygons) ∧
    ps.Nodup ∧ ps.Pairwise (· ≤ ·) ∧ (∀ q ∈ ps, q ∉ segsPts r) ∧ ValidSegments r := by
  have hnone : (∀ q, ¬ (q ∈ segsPts l.segments ∧ q ∈ polysPts s.polygons)) →
      (∀ q, (q ∈ ([] : List Point) ∨ q ∈ segsPts []) ↔ q ∈ segsPts l.segments ∧ q ∈ polysPts s.polygons) ∧
      ([] : List Point).Nodup ∧ ([] : List Point).Pairwise (· ≤ ·) ∧ (∀ q ∈ ([] : List Point), q ∉ segsPts []) ∧
        ValidSegments [] := by
    intro hn
    refine ⟨fun q => ?_, List.nodup_nil, List.Pairwise.nil, by simp, validSegments_nil⟩
    rw [segsPts_nil]
    simp [hn q]
  obtain ⟨b₁, hb₁⟩ := boxOf_ok k₁.ne
  obtain ⟨b₂, hb₂⟩ := polygonsBox_ok k₂.ne
  have red := kept_iff ok k₁ k₂ hb₁ hb₂
  unfold mixedCompleteIntersection
  rw [hb₁, hb₂]
  simp only [bind, Except.bind, pure, Except.pure]
  by_cases hd : disjointWith b₁ b₂ = true
  · rw [if_pos hd]
    have := shaped_disjoint k₂.valid.valid hb₁ hb₂ hd
    exact ⟨[], [], rfl, hnone fun q hq => this q hq.1 hq.2⟩
  rw [if_neg hd]
  by_cases he₁ : (toIntersectingSegments b₂ l.segments).isEmpty = true
  · rw [if_pos he₁]
    refine ⟨[], [], rfl, hnone fun q hq => ?_⟩
    have := ((red q).1 hq).1
    rw [List.isEmpty_iff.1 he₁, segsPts_nil] at this
    exact this
  rw [if_neg he₁]
  by_cases he₂ : (toIntersectingPolygons o b₁ s.polygons).isEmpty = true
  · rw [if_pos he₂]
    refine ⟨[], [], rfl, hnone fun q hq => ?_⟩
    obtain ⟨p, hp, -⟩ := ((red q).1 hq).2
    rw [List.isEmpty_iff.1 he₂] at hp
    cases hp
  rw [if_neg he₂]
  have vs := k₂.valid.sublist (toIntersectingPolygons_sub o b₁ s.polygons)
  obtain ⟨m₁, hm₁⟩ := maxXOf_ok (l := toIntersectingSegments b₂ l.segments) (by
    intro h; exact he₁ (by rw [h]; rfl))
  obtain ⟨m₂, hm₂, hx₂⟩ := polygonsMaxX_spec vs.valid (by
    intro h; exact he₂ (by rw [h]; rfl))
  rw [hm₁, hm₂]
  have hE := vs.isBoundary
  have nL : NoOverlap (toIntersectingSegments b₂ l.segments) := k₁.no.sublist List.filter_sublist
  obtain ⟨h, log, e, M⟩ := mixedSweep_end (sel := selectInside) (g := not) (fun _ _ => rfl) tb
    (some (min m₁ m₂)) nL hE
  dsimp only
  rw [e]
  dsimp only
  have hx := exitOk vs (fun q hq => maxXOf_spec hm₁ hq) hx₂ M
  set events := (log.map Prod.fst).insertionSort fun e f => queueLt h f e = false with hev
  have perm : events.Perm (log.map Prod.fst) := List.perm_insertionSort _ _
  have his : ∀ i, i ∈ (events.filterMap fun e => match e with | .left i => some i | .right _ => none) ↔
      Ev.left i ∈ log.map Prod.fst := by
    intro i
    rw [List.mem_filterMap, ← perm.mem_iff]
    constructor
    · rintro ⟨e, he, hi⟩
      cases e with
      | left k => cases hi; exact he
      | right k => cases hi
    · intro hi; exact ⟨_, hi, rfl⟩
  have C := M.complete hE ⟨_, rfl⟩ hx perm (sorted_events _ _) rfl his
  rw [vs.pts_eq] at C
  refine ⟨_, _, rfl, fun q => ?_, C.2.1, C.2.2.1, C.2.2.2, ?_⟩
  · rw [red q]; exact C.1 q
  · refine M.valid ?_ fun i hi hr => ?_
    · refine (perm.nodup_iff.2 M.nodup).filterMap ?_
      intro e f i he hf
      cases e <;> cases f <;> simp_all
    have hl := (his i).1 hi
    exact ⟨(M.selected_in hE hx hl hr).1, M.first_of_result hl hr⟩

/-- `Union.compute` and `SymmetricDifference.compute` -/
theorem mixedUnion_result : ∃ g, mixedUnion o tb l s =
      .ok (if g.isEmpty then s.value else .mix .empty g s.value) ∧
    IsDifference (segsPts l.segments) (polysPts s.polygons) g.pts ∧
    (g = l.value ∨ ∃ r, g = unpackSegments r ∧ (ValidSegments l.segments → ValidSegments r)) := by
  obtain ⟨b₁, hb₁⟩ := boxOf_ok k₁.ne
  obtain ⟨b₂, hb₂⟩ := polygonsBox_ok k₂.ne
  obtain ⟨i₁, n₁⟩ := boxOf_spec hb₁
  obtain ⟨i₂, n₂⟩ := polygonsBox_spec k₂.valid.valid hb₂
  have red := kept_iff ok k₁ k₂ hb₁ hb₂
  unfold mixedUnion
  rw [hb₁, hb₂]
  simp only [bind, Except.bind, pure, Except.pure]
  by_cases hd : disjointWith b₁ b₂ = true
  · rw [if_pos hd]
    have hne : l.value.isEmpty = false := by
      cases hv : l.value with
      | empty =>
        have := k₁.pts
        rw [hv] at this
        obtain ⟨t, ht⟩ := List.exists_mem_of_ne_nil _ k₁.ne
        have hm : t.start ∈ segsPts l.segments := ⟨t, ht, t.start_mem⟩
        rw [← this] at hm
        cases hm
      | _ => rfl
    refine ⟨l.value, ?_, ?_, Or.inl rfl⟩
    · rw [hne]; rfl
    · rw [k₁.pts]
      have := shaped_disjoint k₂.valid.valid hb₁ hb₂ hd
      exact isDifference_self ((Set.finite_empty).subset fun q hq => this q hq.1 hq.2)
  rw [if_neg hd]
  obtain ⟨f1, f2, f3, f4⟩ := toIntersectingSegments_spec b₂ l.segments n₂ k₁.no.1
  have vs := k₂.valid.sublist (toIntersectingPolygons_sub o b₁ s.polygons)
  have hE := vs.isBoundary
  have nL : NoOverlap (toIntersectingSegments b₂ l.segments) := k₁.no.sublist List.filter_sublist
  obtain ⟨h, log, e, M⟩ := mixedSweep_end (sel := selectOutside) (g := id) (fun _ _ => rfl) tb none nL hE
  rw [f4, e]
  dsimp only
  have hall : ∀ i < h.count, i ∈ rightsOf log := by
    intro i hi
    rw [M.fin.done i hi]; rfl
  have hl : ∀ i, i ∈ leftsOf log ↔ i < h.count := by
    intro i
    rw [mem_leftsOf M.prim, M.mem]
    exact ⟨fun h => h.1, fun h => ⟨h, rfl⟩⟩
  have D := M.difference hE (fun i hi _ => hall i hi) (is := leftsOf log)
    (fun i _ => ⟨fun hi => hall i ((hl i).1 hi), fun hi => (hl i).2 (M.fin.bound i hi)⟩)
    (fun i hi => (mem_leftsOf M.prim).1 hi)
  rw [vs.pts_eq] at D
  set rest := (splitIntersectingSegments b₂ l.segments).1 with hrest
  have hpts : segsPts l.segments = segsPts (toIntersectingSegments b₂ l.segments) ∪ segsPts rest := by
    ext q
    constructor
    · rintro ⟨t, ht, hq⟩
      by_cases hm : ∃ p, p ∈ b₂.pts ∧ p ∈ t.pts
      · exact Or.inl ⟨t, (f1 t).2 ⟨ht, hm⟩, hq⟩
      · push Not at hm
        exact Or.inr ⟨t, (f3 t).2 ⟨ht, hm⟩, hq⟩
    · rintro (⟨t, ht, hq⟩ | ⟨t, ht, hq⟩)
      · exact ⟨t, ((f1 t).1 ht).1, hq⟩
      · exact ⟨t, ((f3 t).1 ht).1, hq⟩
  have hfar : ∀ q ∈ segsPts rest, q ∉ polysPts s.polygons := by
    rintro q ⟨t, ht, hq⟩ hp
    exact ((f3 t).1 ht).2 q (i₂ hp) hq
  refine ⟨unpackSegments (resultSegments h (leftsOf log) ++ rest), rfl, ⟨?_, ?_, ?_⟩, Or.inr ⟨_, rfl, ?_⟩⟩
  · rw [unpackSegments_pts, segsPts_append]
    rintro q ⟨h1, h2⟩
    rw [hpts] at h1
    rcases h1 with h1 | h1
    · left
      refine D.covers ⟨h1, fun h3 => h2 ?_⟩
      exact ((red q).2 ⟨h1, h3⟩).2
    · exact Or.inr h1
  · rw [unpackSegments_pts, segsPts_append, hpts]
    exact Set.union_subset_union_left _ D.within
  · rw [unpackSegments_pts, segsPts_append]
    refine D.finite.subset ?_
    rintro q ⟨h1 | h1, h2⟩
    · refine ⟨h1, ((red q).1 ⟨?_, h2⟩).2⟩
      rw [hpts]; exact Or.inl (D.within h1)
    · exact absurd h2 (hfar q h1)
  · intro hv
    have sub : rest.Sublist l.segments := List.filter_sublist
    have vr : ValidSegments rest := ⟨fun t ht => hv.1 t (sub.subset ht), hv.2.sublist sub⟩
    refine M.valid_append (leftsOf_nodup M.nodup M.prim) (fun i hi hr => ⟨hall i ((hl i).1 hi),
      M.first_of_result ((mem_leftsOf M.prim).1 hi) hr⟩) vr ?_
    intro x hx t ht
    have hxt : x ≠ t := by
      rintro rfl
      obtain ⟨p, h1, h2⟩ := ((f1 x).1 hx).2
      exact ((f3 x).1 ht).2 p h1 h2
    exact hv.of_ne ((f1 x).1 hx).1 ((f3 t).1 ht).1 hxt

end ops

end Clipping

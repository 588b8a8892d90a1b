import Verif.Lemmas.Shaped.Tracing
import Verif.Lemmas.Region.Direction

/-!
# The polygons assembled from the traced contours
-/

namespace Clipping

open Sweep Darts

/-! ## Borders and holes -/

namespace RelOk

variable {ptr : ℕ → Option (ℕ × Bool)} {r : Relations} {n : ℕ}

theorem parent_external (R : RelOk ptr r n) {j p : ℕ} (hj : j < n) (hp : r.parents.getD j none = some p) :
    p < j ∧ r.areInternal.getD p false = false ∧ r.areInternal.getD j false = true := by
  cases hi : r.areInternal.getD j false with
  | false => rw [(R.external j hj hi).1] at hp; cases hp
  | true =>
    obtain ⟨-, q, h1, h2, h3, -⟩ := R.internal j hj hi
    rw [h2] at hp
    cases hp
    exact ⟨h1, h3, rfl⟩

theorem holes_internal (R : RelOk ptr r n) {p : ℕ} (hp : p < n) (hi : r.areInternal.getD p false = true) :
    r.holes.getD p [] = [] := by
  rw [R.holes p hp, List.filter_eq_nil_iff]
  intro j hj
  rw [List.mem_range] at hj
  rw [decide_eq_true_iff]
  intro h
  have := (R.parent_external hj h).2.1
  rw [hi] at this; cases this

/-- the borders -/
def borders (r : Relations) (n : ℕ) : List ℕ := (List.range n).filter fun j => !r.areInternal.getD j false

theorem mem_borders {j : ℕ} : j ∈ borders r n ↔ j < n ∧ r.areInternal.getD j false = false := by
  unfold borders
  rw [List.mem_filter, List.mem_range, Bool.not_eq_true']

theorem mem_holes (R : RelOk ptr r n) {p j : ℕ} (hp : p < n) : j ∈ r.holes.getD p [] ↔ j < n ∧ r.parents.getD j none = some p := by
  rw [R.holes p hp, List.mem_filter, List.mem_range, decide_eq_true_iff]

theorem assemble (R : RelOk ptr r n) {contours : List Contour} (hl : contours.length = n) :
    assemblePolygons r contours = (borders r n).map (polygonOf contours r.holes) := by
  unfold assemblePolygons borders
  rw [hl]
  have hn : ∀ j ∈ List.range n, j < n := fun j hj => List.mem_range.1 hj
  generalize List.range n = l at hn
  induction l with
  | nil => rfl
  | cons j l ih =>
    rw [List.flatMap_cons, ih fun i hi => hn i (by simp [hi]), List.filter_cons]
    cases hi : r.areInternal.getD j false with
    | true => rw [if_pos rfl, R.holes_internal (hn j (by simp)) hi]; simp
    | false => rw [if_neg (by simp)]; simp

/-- Every contour is the border or a hole of exactly one polygon. -/
theorem perm_range (R : RelOk ptr r n) : ((borders r n).flatMap fun p => p :: r.holes.getD p []).Perm (List.range n) := by
  refine (List.perm_ext_iff_of_nodup ?_ List.nodup_range).2 ?_
  · rw [List.nodup_flatMap]
    constructor
    · intro p hp
      obtain ⟨h1, h2⟩ := mem_borders.1 hp
      rw [List.nodup_cons]
      refine ⟨?_, ?_⟩
      · intro hh
        have := (R.parent_external h1 ((R.mem_holes h1).1 hh).2).1
        omega
      · rw [R.holes p h1]; exact List.nodup_range.filter _
    · have nd : (borders r n).Nodup := List.nodup_range.filter _
      refine List.Pairwise.imp_of_mem ?_ nd
      intro p q hp hq hpq
      obtain ⟨p1, p2⟩ := mem_borders.1 hp
      obtain ⟨q1, q2⟩ := mem_borders.1 hq
      change List.Disjoint _ _
      intro j h1 h2
      rw [List.mem_cons, R.mem_holes p1] at h1
      rw [List.mem_cons, R.mem_holes q1] at h2
      rcases h1 with rfl | ⟨h1, h1'⟩
      · rcases h2 with rfl | ⟨h2, h2'⟩
        · exact hpq rfl
        · have := (R.parent_external h2 h2').2.2
          rw [p2] at this; cases this
      · rcases h2 with rfl | ⟨h2, h2'⟩
        · have := (R.parent_external h1 h1').2.2
          rw [q2] at this; cases this
        · rw [h1'] at h2'
          exact hpq (Option.some.inj h2')
  · intro j
    rw [List.mem_flatMap, List.mem_range]
    constructor
    · rintro ⟨p, hp, hj⟩
      have h1 := (mem_borders.1 hp).1
      rw [List.mem_cons, R.mem_holes h1] at hj
      rcases hj with rfl | hj
      · exact h1
      · exact hj.1
    · intro hj
      cases hi : r.areInternal.getD j false with
      | false => exact ⟨j, mem_borders.2 ⟨hj, hi⟩, by simp⟩
      | true =>
        obtain ⟨-, p, h1, h2, h3, -⟩ := R.internal j hj hi
        refine ⟨p, mem_borders.2 ⟨by omega, h3⟩, ?_⟩
        rw [List.mem_cons, R.mem_holes (by omega)]
        exact Or.inr ⟨hj, h2⟩

theorem edges_perm (R : RelOk ptr r n) {contours : List Contour} (hl : contours.length = n) :
    ((assemblePolygons r contours).flatMap Polygon.edges).Perm
      ((List.range n).flatMap fun j => (contours.getD j ⟨[]⟩).edges) := by
  rw [R.assemble hl]
  refine List.Perm.trans ?_ (R.perm_range.flatMap_right fun j => (contours.getD j ⟨[]⟩).edges)
  rw [List.flatMap_map, List.flatMap_assoc]
  apply List.Perm.of_eq
  apply List.flatMap_congr
  intro p hp
  unfold polygonOf Polygon.edges
  simp only [List.flatMap_cons, List.flatMap_map]

end RelOk

/-! ## The edges of all contours -/

namespace Darts

variable {D : Darts} {F₀ : Finset ℕ} {Rs : List (List ℕ)}

/-- The contours have all edges, each one once. -/
theorem Traced₀.sameEdges (T : D.Traced₀ F₀ Rs ∅) :
    SameEdges ((List.range Rs.length).flatMap fun j => (nth Rs j).map D.seg) (D.edges F₀) := by
  classical
  obtain ⟨-, -, -, cover, used, -⟩ := T.traces.inv T.start
  set rep : ℕ → ℕ := fun x => if D.key x < D.key (D.opp x) then x else D.opp x with hrep
  set L := (List.range Rs.length).flatMap (nth Rs) with hL
  have memL : ∀ x, x ∈ L ↔ ∃ j < Rs.length, x ∈ nth Rs j := by
    intro x; rw [hL, List.mem_flatMap]; simp only [List.mem_range]
  have lt : ∀ x ∈ L, x < D.n := by
    intro x hx
    obtain ⟨j, hj, hxj⟩ := (memL x).1 hx
    exact T.lt hj hxj
  have nd : L.Nodup := by
    rw [hL, List.nodup_flatMap]
    refine ⟨fun j hj => (T.loop (List.mem_range.1 hj)).nodup, ?_⟩
    refine List.Pairwise.imp_of_mem ?_ (List.nodup_range (n := Rs.length))
    intro i j hi hj hij
    change List.Disjoint _ _
    intro x h1 h2
    exact (T.disjoint (List.mem_range.1 hi) (List.mem_range.1 hj) hij h1).1 h2
  have noOpp : ∀ x ∈ L, D.opp x ∉ L := by
    intro x hx ho
    obtain ⟨j, hj, hxj⟩ := (memL x).1 hx
    obtain ⟨k, hk, hok⟩ := (memL _).1 ho
    by_cases e : j = k
    · subst e
      exact (T.loop hj).opp x hxj hok
    · exact (T.disjoint hj hk e hxj).2 hok
  have e1 : ((List.range Rs.length).flatMap fun j => (nth Rs j).map D.seg) = L.map D.seg := by
    rw [hL, List.map_flatMap]
  have e2 : (L.map D.seg).map Segment.norm = ((L.map rep).map D.seg).map Segment.norm := by
    rw [List.map_map, List.map_map, List.map_map]
    apply List.map_congr_left
    intro x hx
    simp only [Function.comp, hrep]
    split_ifs
    · rfl
    · have : D.seg (D.opp x) = (D.seg x).swap := by
        unfold Darts.seg Segment.swap
        rw [D.opp_opp x (lt x hx)]
      rw [this, norm_swap]
  rw [e1]
  unfold SameEdges
  rw [e2]
  unfold Darts.edges
  refine (List.Perm.map _ ?_).map _
  refine (List.perm_ext_iff_of_nodup ?_ (Finset.nodup_toList _)).2 ?_
  · refine nd.map_on ?_
    intro x hx y hy hxy
    simp only [hrep] at hxy
    split_ifs at hxy with h1 h2 h2
    · exact hxy
    · rw [hxy] at hx; exact absurd hx (noOpp y hy)
    · rw [← hxy] at hy; exact absurd hy (noOpp x hx)
    · exact opp_inj (lt x hx) (lt y hy) hxy
  · intro x
    rw [List.mem_map, Finset.mem_toList, Finset.mem_filter]
    constructor
    · rintro ⟨y, hy, rfl⟩
      obtain ⟨j, hj, hyj⟩ := (memL y).1 hy
      have hy0 := (used j hj y hyj).1
      simp only [hrep]
      split_ifs with h1
      · exact ⟨hy0, h1⟩
      · refine ⟨T.start.closed.opp y hy0, ?_⟩
        rw [D.opp_opp y (lt y hy)]
        exact lt_of_le_of_ne (not_lt.1 h1) (Ne.symm (D.ne y (lt y hy)))
    · rintro ⟨h1, h2⟩
      rcases cover x h1 with h3 | ⟨j, hj, h3 | h3⟩
      · simp at h3
      · exact ⟨x, (memL x).2 ⟨j, hj, h3⟩, by simp only [hrep]; rw [if_pos h2]⟩
      · refine ⟨D.opp x, (memL _).2 ⟨j, hj, h3⟩, ?_⟩
        simp only [hrep]
        rw [D.opp_opp x (T.start.closed.lt x h1), if_neg (lt_asymm h2)]

end Darts

namespace Selected

variable {h : Heap ShapedData} {events : List Ev} {S : Selected h events}

/-- What is known of the polygons assembled from the traced contours, whatever the edges below are. -/
structure Outline (S : Selected h events) (ps : List Polygon) : Prop where
  border : ∀ p ∈ ps, SimpleContour p.border ∧ contourOrientation p.border = .counterclockwise
  hole : ∀ p ∈ ps, ∀ c ∈ p.holes, SimpleContour c ∧ contourOrientation c = .clockwise
  noOverlap : NoOverlap (ps.flatMap Polygon.edges)
  pts : segsPts (ps.flatMap Polygon.edges) = segsPts (leftEdges h events)
  inside : ∀ q, Inside (ps.flatMap Polygon.edges) q ↔ Inside (leftEdges h events) q

section

variable {processed : ℕ → Bool} {m : Marks} {r : Relations} {contours : List Contour} {Rs : List (List ℕ)}
  {F : Finset ℕ} {ptr : ℕ → Option (ℕ × Bool)}

theorem TraceInv.traced₀ (I : TraceInv S processed m r contours Rs F ptr) :
    S.darts.Traced₀ (Finset.range S.darts.n) Rs F := ⟨S.darts_start, I.traces⟩

theorem traced_spec (S : Selected h events) {F : Finset ℕ} {d : ℕ} {R : List ℕ} (T : S.darts.Traced F d R)
    (hf : S.darts.First F d) : SimpleContour ⟨S.traced R⟩ ∧ contourOrientation ⟨S.traced R⟩ = .counterclockwise ∧
      Coarser (R.map S.darts.seg) (Contour.mk (S.traced R)).edges := by
  have hs := T.loop.simple
  have hd := (shrinkCollinearVertices_drops (R.map S.darts.key)).1
  obtain ⟨h1, h2⟩ := hs.drops hd
  refine ⟨h1, hs.drops_ccw hd (T.ccw hf), ?_⟩
  have := T.loop.edges
  unfold Loop.contour at this
  rw [this] at h2
  exact h2

theorem TraceInv.contour_spec (I : TraceInv S processed m r contours Rs F ptr) {j : ℕ} (hj : j < Rs.length) :
    SimpleContour (contours.getD j ⟨[]⟩) ∧
    (contourOrientation (contours.getD j ⟨[]⟩) = if r.areInternal.getD j false = true then .clockwise else .counterclockwise) ∧
    ∃ E, Coarser E (contours.getD j ⟨[]⟩).edges ∧ SameEdges E ((nth Rs j).map S.darts.seg) := by
  obtain ⟨Fj, dj, st⟩ := I.traced₀.stage hj
  obtain ⟨h1, h2, h3⟩ := S.traced_spec st.traced st.first
  rw [I.contour j hj]
  split_ifs with hi
  · refine ⟨h1.reversed, h1.reversed_cw h2, _, h3.swap.trans (.perm (edges_reverse_perm _).symm), SameEdges.of_swap _⟩
  · exact ⟨h1, h2, _, h3, SameEdges.of_perm (List.Perm.refl _)⟩

theorem TraceInv.outline (I : TraceInv S processed m r contours Rs F ptr) (hF : F = ∅) :
    S.Outline (assemblePolygons r contours) := by
  subst hF
  have hperm := I.rel.edges_perm I.len
  have hspec : ∀ j, ∃ E, j < Rs.length → Coarser E (contours.getD j ⟨[]⟩).edges ∧ SameEdges E ((nth Rs j).map S.darts.seg) := by
    intro j
    by_cases hj : j < Rs.length
    · obtain ⟨-, -, E, hE⟩ := I.contour_spec hj
      exact ⟨E, fun _ => hE⟩
    · exact ⟨[], fun h => absurd h hj⟩
  choose E hE using hspec
  have co : Coarser ((List.range Rs.length).flatMap E) ((assemblePolygons r contours).flatMap Polygon.edges) := by
    refine .trans (Coarser.flatMap _ _ _ ?_) (.perm hperm.symm)
    intro j hj
    exact (hE j (List.mem_range.1 hj)).1
  have same : SameEdges ((List.range Rs.length).flatMap E) (leftEdges h events) := by
    refine (SameEdges.flatMap _ _ _ ?_).trans (I.traced₀.sameEdges.trans (SameEdges.of_perm S.edges_perm))
    intro j hj
    exact (hE j (List.mem_range.1 hj)).2
  have no : NoOverlap (leftEdges h events) := by
    have hp : ∀ e ∈ leftEdges h events, e.Proper := by
      intro e he
      rw [leftEdges_eq] at he
      obtain ⟨i, hi, rfl⟩ := List.mem_map.1 he
      exact (S.lt i (mem_leftIds.1 hi)).ne
    refine ⟨hp, List.Pairwise.imp_of_mem ?_ S.endsOnly⟩
    intro s t hs ht hst
    exact (endsOnly_not (hp s hs) (hp t ht) hst).1
  have hmem : ∀ p ∈ assemblePolygons r contours, ∃ i ∈ RelOk.borders r Rs.length, polygonOf contours r.holes i = p := by
    intro p hp
    rw [I.rel.assemble I.len] at hp
    obtain ⟨i, hi, e⟩ := List.mem_map.1 hp
    exact ⟨i, hi, e⟩
  refine ⟨?_, ?_, co.noOverlap (same.symm.noOverlap no), co.segsPts_eq.trans same.segsPts_eq,
    fun q => (co.inside_iff q).trans (same.inside_iff q)⟩
  · intro p hp
    obtain ⟨i, hi, rfl⟩ := hmem p hp
    obtain ⟨h1, h2⟩ := RelOk.mem_borders.1 hi
    obtain ⟨s1, s2, -⟩ := I.contour_spec h1
    rw [if_neg (by rw [h2]; simp)] at s2
    exact ⟨s1, s2⟩
  · intro p hp c hc
    obtain ⟨i, hi, rfl⟩ := hmem p hp
    obtain ⟨h1, h2⟩ := RelOk.mem_borders.1 hi
    obtain ⟨j, hj, rfl⟩ := List.mem_map.1 hc
    obtain ⟨j1, j2⟩ := (I.rel.mem_holes h1).1 hj
    have hint := (I.rel.parent_external j1 j2).2.2
    obtain ⟨s1, s2, -⟩ := I.contour_spec j1
    rw [if_pos hint] at s2
    exact ⟨s1, s2⟩

end

end Selected

/-- `events_to_polygons` succeeds. -/
theorem eventsToPolygons_outline {h : Heap ShapedData} {events : List Ev} (S : Selected h (events.filter (fromResult h)))
    (B : Selected.BelowOk h (events.filter (fromResult h))) : ∃ ps, eventsToPolygons h events = .ok ps ∧ S.Outline ps := by
  obtain ⟨r, contours, processed, m, Rs, F, ptr, h1, h2, h3⟩ := S.tracing B
  refine ⟨assemblePolygons r contours, ?_, h2.outline h3⟩
  unfold eventsToPolygons
  dsimp only
  rw [h1]

end Clipping

import Verif.Lemmas.Mixed.Result
import Verif.Lemmas.Shaped.TwinEnd
import Verif.Lemmas.Shaped.CompleteResult
import Verif.Lemmas.Steps
import Verif.Spec.Cut

/-!
# Segments of results on a linear and a shaped operand
-/

namespace Clipping

open Sweep

theorem CutOnly.length_le {L E r : List Segment} (h : CutOnly L E r) (pr : ∀ s ∈ L ++ E, s.Proper) : r.length ≤ contacts (L ++ E) := by
  refine length_le_of_vertices pr h.noOverlap (fun c hc q hq => ?_) (fun c hc => ?_)
  · obtain ⟨s, hs, hw⟩ := h.part c hc
    exact ⟨s, List.mem_append_left _ hs, hw hq⟩
  · exact h.ends c hc _ (by rcases min_choice c.start c.stop with g | g; exacts [Or.inl g, Or.inr g])

theorem cutOnly_nil (L E : List Segment) : CutOnly L E [] := ⟨⟨by simp, List.Pairwise.nil⟩, by simp, by simp⟩

theorem cutOnly_self {L : List Segment} (h : NoOverlap L) (E : List Segment) : CutOnly L E L :=
  ⟨h, fun c hc => ⟨c, hc, subset_rfl⟩, fun c hc _ hv => Or.inl ⟨c, List.mem_append_left _ hc, hv⟩⟩

theorem CutOnly.mono {L L' E E' r : List Segment} (h : CutOnly L E r) (hL : L ⊆ L') (hE : ∀ v, Vertex (L ++ E) v → Vertex (L' ++ E') v) :
    CutOnly L' E' r :=
  ⟨h.noOverlap, fun c hc => (h.part c hc).imp fun _ hs => ⟨hL hs.1, hs.2⟩, fun c hc v hv => hE v (h.ends c hc v hv)⟩

/-- The segments selected by the sweep. -/
theorem MixedEnd.cutOnly {g : Bool → Bool} {h : Heap MixedData} {log : List (Ev × ℕ)} {stop : Point → Bool} {L E : List Segment}
    (M : MixedEnd g h log stop L E) {is : List ℕ} (nd : is.Nodup)
    (his : ∀ i ∈ is, (h.lefts i).data.fromResult = true → i < h.count ∧ h.first i = true) : CutOnly L E (resultSegments h is) := by
  have sub : (resultSegments h is).Subperm (piecesOf h true) := by
    unfold resultSegments piecesOf
    obtain ⟨l, hp, hs⟩ := (nd.filter fun i => (h.lefts i).data.fromResult).subperm (l₂ := (List.range h.count).filter fun i => h.first i == true)
      fun i hi => by
        obtain ⟨h1, h2⟩ := List.mem_filter.1 hi
        obtain ⟨h3, h4⟩ := his i h1 h2
        exact List.mem_filter.2 ⟨List.mem_range.2 h3, by rw [h4]; rfl⟩
    exact ⟨l.map h.segment, hp.map _, hs.map _⟩
  obtain ⟨l, hp, hs⟩ := sub
  refine ⟨((M.fin.pieces_noOverlap true).sublist hs).perm hp, ?_, ?_⟩
  · intro c hc
    obtain ⟨i, hi, rfl⟩ := List.mem_map.1 hc
    obtain ⟨h1, h2⟩ := List.mem_filter.1 hi
    obtain ⟨h3, h4⟩ := his i h1 h2
    have := M.fin.partOf h3
    rwa [h4, if_pos rfl] at this
  · intro c hc v hv
    obtain ⟨i, hi, rfl⟩ := List.mem_map.1 hc
    obtain ⟨h1, h2⟩ := List.mem_filter.1 hi
    obtain ⟨h3, h4⟩ := his i h1 h2
    have := M.fin.vert i h3
    rw [marked_fst] at this
    rcases hv with rfl | rfl
    · exact this.1
    · exact this.2

theorem vertex_sublist {L L' : List Segment} {ps ps' : List Polygon} (hL : L ⊆ L') (hp : ps'.Sublist ps) (h : ValidPolygons ps) {v : Point}
    (hv : Vertex (L ++ ps'.flatMap polygonEdges) v) : Vertex (L' ++ ps.flatMap Polygon.edges) v := by
  have same : SameSegments (ps'.flatMap polygonEdges) (ps'.flatMap Polygon.edges) :=
    SameEdges.sameSegments (SameEdges.flatMap _ _ _ fun p hp' => (h.valid p (hp.subset hp')).sameEdges)
  have hv := (SameSegments.append ⟨fun s hs => ⟨s, hs, rfl, rfl⟩, fun s hs => ⟨s, hs, rfl, rfl⟩⟩ same).vertex hv
  refine hv.mono fun s hs => List.mem_append.2 ((List.mem_append.1 hs).imp (fun k => hL k) fun k => ?_)
  obtain ⟨p, hp', hs⟩ := List.mem_flatMap.1 k
  exact List.mem_flatMap.2 ⟨p, hp.subset hp', hs⟩

section ops
variable {o : Orient} (tb : TieBreak) {l : LinearOperand} {s : ShapedOperand} (k₁ : OperandOk l) (k₂ : ShapedOk s)
include k₁ k₂

/-- `Difference.compute` -/
theorem mixedDifference_cut (hv : l.value.linearSegments = l.segments) : ∃ g, mixedDifference o tb l s = .ok g ∧
    CutOnly l.segments (s.polygons.flatMap Polygon.edges) g.linearSegments := by
  obtain ⟨b₁, hb₁⟩ := boxOf_ok k₁.ne
  obtain ⟨b₂, hb₂⟩ := polygonsBox_ok k₂.ne
  have self : CutOnly l.segments (s.polygons.flatMap Polygon.edges) l.value.linearSegments := by rw [hv]; exact cutOnly_self k₁.no _
  unfold mixedDifference
  rw [hb₁, hb₂]
  simp only [bind, Except.bind, pure, Except.pure]
  by_cases hd : disjointWith b₁ b₂ = true
  · rw [if_pos hd]; exact ⟨_, rfl, self⟩
  rw [if_neg hd]
  by_cases he : (toCoupledPolygons o b₁ s.polygons).isEmpty = true
  · rw [if_pos he]; exact ⟨_, rfl, self⟩
  rw [if_neg he]
  obtain ⟨m, hm⟩ := maxXOf_ok k₁.ne
  rw [hm]
  have vs := k₂.valid.sublist (toCoupledPolygons_sub o b₁ s.polygons)
  obtain ⟨h, log, e, M⟩ := mixedSweep_end (sel := selectOutside) (g := id) (fun _ _ => rfl) tb (some m) k₁.no vs.isBoundary
  dsimp only
  rw [e]
  refine ⟨_, rfl, ?_⟩
  rw [(unpackSegments_linear _).2.1]
  refine (M.cutOnly M.fin.nodup fun i hi hr => ⟨M.fin.bound i hi, M.first_of_result (M.left_of_right (stopAt_mono _) hi) hr⟩).mono
    (fun _ h => h) fun v => vertex_sublist (fun _ h => h) (toCoupledPolygons_sub o b₁ s.polygons) k₂.valid

/-- `Intersection.compute` -/
theorem mixedIntersection_cut : ∃ g, mixedIntersection o tb l s = .ok g ∧
    CutOnly l.segments (s.polygons.flatMap Polygon.edges) g.linearSegments := by
  obtain ⟨b₁, hb₁⟩ := boxOf_ok k₁.ne
  obtain ⟨b₂, hb₂⟩ := polygonsBox_ok k₂.ne
  unfold mixedIntersection
  rw [hb₁, hb₂]
  simp only [bind, Except.bind, pure, Except.pure]
  by_cases hd : disjointWith b₁ b₂ = true
  · rw [if_pos hd]; exact ⟨_, rfl, cutOnly_nil _ _⟩
  rw [if_neg hd]
  by_cases he₁ : (toIntersectingSegments b₂ l.segments).isEmpty = true
  · rw [if_pos he₁]; exact ⟨_, rfl, cutOnly_nil _ _⟩
  rw [if_neg he₁]
  by_cases he₂ : (toIntersectingPolygons o b₁ s.polygons).isEmpty = true
  · rw [if_pos he₂]; exact ⟨_, rfl, cutOnly_nil _ _⟩
  rw [if_neg he₂]
  have vs := k₂.valid.sublist (toIntersectingPolygons_sub o b₁ s.polygons)
  obtain ⟨m₁, hm₁⟩ := maxXOf_ok (l := toIntersectingSegments b₂ l.segments) (by intro h; exact he₁ (by rw [h]; rfl))
  obtain ⟨m₂, hm₂, -⟩ := polygonsMaxX_spec vs.valid (by intro h; exact he₂ (by rw [h]; rfl))
  rw [hm₁, hm₂]
  have sub : toIntersectingSegments b₂ l.segments ⊆ l.segments := List.filter_sublist.subset
  obtain ⟨h, log, e, M⟩ := mixedSweep_end (sel := selectInside) (g := not) (fun _ _ => rfl) tb (some (min m₁ m₂))
    (k₁.no.sublist List.filter_sublist : NoOverlap (toIntersectingSegments b₂ l.segments)) vs.isBoundary
  dsimp only
  rw [e]
  refine ⟨_, rfl, ?_⟩
  rw [(unpackSegments_linear _).2.1]
  refine (M.cutOnly (leftsOf_nodup M.nodup M.prim) fun i hi hr => ?_).mono sub
    fun v => vertex_sublist sub (toIntersectingPolygons_sub o b₁ s.polygons) k₂.valid
  have hl := (mem_leftsOf M.prim).1 hi
  exact ⟨((M.mem _).1 hl).1, M.first_of_result hl hr⟩

/-- `CompleteIntersection.compute` -/
theorem mixedCompleteIntersection_cut : ∃ g, mixedCompleteIntersection o tb l s = .ok g ∧
    CutOnly l.segments (s.polygons.flatMap Polygon.edges) g.linearSegments := by
  obtain ⟨b₁, hb₁⟩ := boxOf_ok k₁.ne
  obtain ⟨b₂, hb₂⟩ := polygonsBox_ok k₂.ne
  unfold mixedCompleteIntersection
  rw [hb₁, hb₂]
  simp only [bind, Except.bind, pure, Except.pure]
  by_cases hd : disjointWith b₁ b₂ = true
  · rw [if_pos hd]; exact ⟨_, rfl, cutOnly_nil _ _⟩
  rw [if_neg hd]
  by_cases he₁ : (toIntersectingSegments b₂ l.segments).isEmpty = true
  · rw [if_pos he₁]; exact ⟨_, rfl, cutOnly_nil _ _⟩
  rw [if_neg he₁]
  by_cases he₂ : (toIntersectingPolygons o b₁ s.polygons).isEmpty = true
  · rw [if_pos he₂]; exact ⟨_, rfl, cutOnly_nil _ _⟩
  rw [if_neg he₂]
  have vs := k₂.valid.sublist (toIntersectingPolygons_sub o b₁ s.polygons)
  obtain ⟨m₁, hm₁⟩ := maxXOf_ok (l := toIntersectingSegments b₂ l.segments) (by intro h; exact he₁ (by rw [h]; rfl))
  obtain ⟨m₂, hm₂, -⟩ := polygonsMaxX_spec vs.valid (by intro h; exact he₂ (by rw [h]; rfl))
  rw [hm₁, hm₂]
  have sub : toIntersectingSegments b₂ l.segments ⊆ l.segments := List.filter_sublist.subset
  obtain ⟨h, log, e, M⟩ := mixedSweep_end (sel := selectInside) (g := not) (fun _ _ => rfl) tb (some (min m₁ m₂))
    (k₁.no.sublist List.filter_sublist : NoOverlap (toIntersectingSegments b₂ l.segments)) vs.isBoundary
  dsimp only
  rw [e]
  refine ⟨_, rfl, ?_⟩
  have lin : ∀ ps r, (unpackLinearMix (unpackPoints ps) (unpackSegments r)).linearSegments = r := by
    intro ps r
    match ps, r with
    | [], [] => rfl
    | [], [_] => rfl
    | [], _ :: _ :: _ => rfl
    | _ :: _, [] => rfl
    | _ :: _, [_] => rfl
    | _ :: _, _ :: _ :: _ => rfl
  rw [lin]
  have perm : ((log.map Prod.fst).insertionSort fun e f => queueLt h f e = false).Perm (log.map Prod.fst) := List.perm_insertionSort _ _
  refine (M.cutOnly ?_ fun i hi hr => ?_).mono sub
    fun v => vertex_sublist sub (toIntersectingPolygons_sub o b₁ s.polygons) k₂.valid
  · refine (perm.nodup_iff.2 M.nodup).filterMap ?_
    intro e f i he hf
    cases e <;> cases f <;> simp_all
  · have hl : Ev.left i ∈ log.map Prod.fst := by
      obtain ⟨e, he, hi⟩ := List.mem_filterMap.1 hi
      cases e with
      | left k => cases hi; exact perm.mem_iff.1 he
      | right k => cases hi
    exact ⟨((M.mem _).1 hl).1, M.first_of_result hl hr⟩

/-- `Union.compute` and `SymmetricDifference.compute` -/
theorem mixedUnion_cut (hv : l.value.linearSegments = l.segments) (hs : s.value.linearSegments = []) : ∃ g, mixedUnion o tb l s = .ok g ∧
    CutOnly l.segments (s.polygons.flatMap Polygon.edges) g.linearSegments := by
  obtain ⟨b₁, hb₁⟩ := boxOf_ok k₁.ne
  obtain ⟨b₂, hb₂⟩ := polygonsBox_ok k₂.ne
  obtain ⟨i₂, n₂⟩ := polygonsBox_spec k₂.valid.valid hb₂
  unfold mixedUnion
  rw [hb₁, hb₂]
  simp only [bind, Except.bind, pure, Except.pure]
  by_cases hd : disjointWith b₁ b₂ = true
  · rw [if_pos hd]
    refine ⟨_, rfl, ?_⟩
    simp only [Geometry.linearSegments]
    rw [hv]
    exact cutOnly_self k₁.no _
  rw [if_neg hd]
  obtain ⟨f1, f2, f3, f4⟩ := toIntersectingSegments_spec b₂ l.segments n₂ k₁.no.1
  have vs := k₂.valid.sublist (toIntersectingPolygons_sub o b₁ s.polygons)
  have sub : toIntersectingSegments b₂ l.segments ⊆ l.segments := List.filter_sublist.subset
  obtain ⟨h, log, e, M⟩ := mixedSweep_end (sel := selectOutside) (g := id) (fun _ _ => rfl) tb none
    (k₁.no.sublist List.filter_sublist : NoOverlap (toIntersectingSegments b₂ l.segments)) vs.isBoundary
  rw [f4, e]
  dsimp only
  set rest := (splitIntersectingSegments b₂ l.segments).1 with hrest
  have subr : rest.Sublist l.segments := List.filter_sublist
  have C := M.cutOnly (leftsOf_nodup M.nodup M.prim) fun i hi hr => ⟨((M.mem _).1 ((mem_leftsOf M.prim).1 hi)).1,
    M.first_of_result ((mem_leftsOf M.prim).1 hi) hr⟩
  have key : CutOnly l.segments (s.polygons.flatMap Polygon.edges) (resultSegments h (leftsOf log) ++ rest) := by
    have C' := C.mono sub fun v => vertex_sublist sub (toIntersectingPolygons_sub o b₁ s.polygons) k₂.valid
    have R := cutOnly_self (k₁.no.sublist subr) (s.polygons.flatMap Polygon.edges)
    refine ⟨C'.noOverlap.append R.noOverlap ?_, ?_, ?_⟩
    · rintro c hc t ht ho
      obtain ⟨x, hx, hw⟩ := C.part c hc
      have hxt : x ≠ t := by
        rintro rfl
        obtain ⟨p, h1, h2⟩ := ((f1 x).1 hx).2
        exact ((f3 x).1 ht).2 p h1 h2
      have : Std.Symm fun s t : Segment => ¬ Overlapping s t := ⟨fun _ _ g g' => g (overlapping_symm g')⟩
      refine (k₁.no.2.forall (sub hx) (subr.subset ht) hxt) ?_
      obtain ⟨p, q, h0, h1, h2, h3, h4⟩ := ho
      exact ⟨p, q, h0, hw h1, hw h2, h3, h4⟩
    · intro c hc
      rcases List.mem_append.1 hc with hc | hc
      · exact C'.part c hc
      · exact ⟨c, subr.subset hc, subset_rfl⟩
    · intro c hc v hv
      rcases List.mem_append.1 hc with hc | hc
      · exact C'.ends c hc v hv
      · exact Or.inl ⟨c, List.mem_append_left _ (subr.subset hc), hv⟩
  refine ⟨_, rfl, ?_⟩
  split_ifs
  · rw [hs]; exact cutOnly_nil _ _
  · simp only [Geometry.linearSegments]
    rw [(unpackSegments_linear _).2.1]
    exact key

end ops

end Clipping

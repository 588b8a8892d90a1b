import Verif.Lemmas.TreeSweep.Once
import Verif.Lemmas.TreeSweep.Trace
import Verif.Lemmas.Shaped.CompleteResult

/-!
# Results of operations on any polygons
-/

namespace Clipping.TreeSweep

open Sweep

variable {a b : List Segment} {h : Heap ShapedData} {events : List Ev}

theorem opposite_opposite (ok : HeapOk h) {e : Ev} (he : EvOk h e) : h.opposite (h.opposite e) = e := by
  cases e with
  | left i => show Ev.left _ = _; rw [ok.lr i he]
  | right j => show Ev.right _ = _; rw [ok.rl j he]

theorem opposite_ok (ok : HeapOk h) {e : Ev} (he : EvOk h e) : EvOk h (h.opposite e) := by
  cases e with
  | left i => exact ok.rlt i he
  | right j => exact ok.llt j he

/-- Starts of events are vertices. -/
theorem Processed.vertex (P : Processed a b h events) {e : Ev} (he : EvOk h e) : Vertex (a ++ b) (h.evStart e) := by
  cases e with
  | left i => exact (P.pieces.vert i he).1
  | right j =>
    have := (P.pieces.vert _ (P.pieces.ok.llt j he)).2
    unfold Heap.stop at this
    rwa [P.pieces.ok.rl j he] at this

theorem Processed.mono (P : Processed a b h events) {es : List Ev} (nd : es.Nodup) (sub : ∀ e ∈ es, e ∈ events) : Processed a b h es :=
  ⟨P.pieces, nd, fun e he => P.ok e (sub e he)⟩

theorem Processed.sort (P : Processed a b h events) (S : EventSort) : Processed a b h (S.sort h events) :=
  P.mono ((S.perm h events).nodup_iff.2 P.nodup) fun _ he => (S.perm h events).mem_iff.1 he

theorem Processed.selected (P : Processed a b h events) : Processed a b h (events.filter (fromResult h)) :=
  P.mono (List.filter_sublist.nodup P.nodup) fun _ he => List.filter_sublist.subset he

theorem Processed.linked (P : Processed a b h events) (S : EventSort) :
    ∃ pos size, Linked h (S.sort h events) (eventsToConnectivity h (S.sort h events)) pos size (Vertex (a ++ b)) := by
  have P' := P.sort S
  obtain ⟨pos, size, rot⟩ := eventsToConnectivity_rotation (h := h) (events := S.sort h events) (S.start h events) (by
    intro i j hij hj hs hl
    have := List.pairwise_iff_getElem.1 (S.side h events) i j (by omega) hj hij
    unfold startAt at hs
    unfold leftAt at hl ⊢
    rw [List.getD_eq_getElem _ _ hj] at hs ⊢
    rw [List.getD_eq_getElem _ _ (hij.trans hj)] at hs hl
    exact this hs hl)
  exact ⟨pos, size, P'.nodup, fun e he => opposite_opposite P.pieces.ok (P'.ok e he), rot, fun e he => P.vertex (P'.ok e he),
    fun e he => P.vertex (opposite_ok P.pieces.ok (P'.ok e he))⟩

theorem Processed.regions (P : Processed a b h events) (S : EventSort) :
    Ends (eventsToRegionsChecked S h events) fun cs => ∀ c ∈ cs, ∀ v ∈ c.vertices, Vertex (a ++ b) v := by
  obtain ⟨pos, size, L⟩ := P.selected.linked S
  exact L.regions _ _ fun i hi => List.mem_range.1 hi

theorem polygonOf_vertices {Q : Point → Prop} {cs : List Contour} (hc : ∀ c ∈ cs, ∀ v ∈ c.vertices, Q v) {holes : List (List ℕ)} {i : ℕ}
    {c : Contour} (h : c ∈ (polygonOf cs holes i).border :: (polygonOf cs holes i).holes) : ∀ v ∈ c.vertices, Q v := by
  have key : ∀ j, ∀ v ∈ (cs.getD j ⟨[]⟩).vertices, Q v := by
    intro j v hv
    by_cases hj : j < cs.length
    · rw [List.getD_eq_getElem _ _ hj] at hv
      exact hc _ (List.getElem_mem hj) v hv
    · rw [List.getD_eq_default _ _ (by omega)] at hv
      cases hv
  rcases List.mem_cons.1 h with rfl | h
  · exact key i
  · obtain ⟨j, -, rfl⟩ := List.mem_map.1 h
    exact key j

theorem Processed.polygons (P : Processed a b h events) (S : EventSort) (number : Ev → Option ℕ) :
    Ends (eventsToPolygonsChecked S h number events) fun ps => ∀ p ∈ ps, ∀ c ∈ p.border :: p.holes, ∀ v ∈ c.vertices, Vertex (a ++ b) v := by
  obtain ⟨pos, size, L⟩ := P.selected.linked S
  unfold eventsToPolygonsChecked
  dsimp only
  cases (events.filter (fromResult h)).getLast? with
  | none => exact Or.inr ⟨_, rfl, by simp⟩
  | some last =>
    dsimp only
    cases number last with
    | none => exact Or.inl rfl
    | some maxId =>
      dsimp only
      split
      · exact Or.inl rfl
      rcases L.contours number (List.range (S.sort h (events.filter (fromResult h))).length) (fun _ => false)
        ⟨fun _ => none, fun _ => false⟩ ⟨[], [], [], []⟩ [] (List.replicate (maxId + 1) none) (fun i hi => List.mem_range.1 hi)
        (fun _ _ _ => rfl) (by simp) with e | ⟨⟨r, cs⟩, e, hc⟩
      · rw [e]; exact Or.inl rfl
      · rw [e]
        refine Or.inr ⟨_, rfl, ?_⟩
        intro p hp
        unfold assemblePolygons at hp
        obtain ⟨i, -, hp⟩ := List.mem_flatMap.1 hp
        split at hp
        · obtain ⟨j, -, rfl⟩ := List.mem_map.1 hp
          exact fun c hm => polygonOf_vertices hc hm
        · rw [List.mem_singleton.1 hp]
          exact fun c hm => polygonOf_vertices hc hm

/-- Points of a complete intersection are on both boundaries. -/
theorem Processed.touch (P : Processed a b h events) : ∀ p ∈ touchPoints h (groupRuns h.evStart events), p ∈ segsPts a ∩ segsPts b := by
  intro p hp
  unfold touchPoints at hp
  obtain ⟨⟨k, g⟩, hx, rfl⟩ := List.mem_map.1 hp
  obtain ⟨hx, hne⟩ := List.mem_filter.1 hx
  obtain ⟨-, hg⟩ := groupRuns_run hx
  obtain ⟨⟨e, he, fe⟩, f, hf, ff⟩ := exists_both (f := h.evFirst) (g := g) (by
    simp only [Bool.not_or, Bool.and_eq_true, Bool.not_eq_true'] at hne
    exact hne.2)
  have ke := P.ok e (hg e he).1
  have kf := P.ok f (hg f hf).1
  obtain ⟨t, ht, h1⟩ := P.pieces.first _ (P.pieces.primary_lt ke) fe
  obtain ⟨u, hu, h2⟩ := P.pieces.second _ (P.pieces.primary_lt kf) ff
  have m1 := P.pieces.start_mem ke
  have m2 := P.pieces.start_mem kf
  rw [(hg e he).2] at m1
  rw [(hg f hf).2] at m2
  exact ⟨⟨t, ht, h1 m1⟩, u, hu, h2 m2⟩

/-- Segments of a complete intersection are parts of edges of the first operand. -/
theorem Processed.common (P : Processed a b h events) : ∀ c ∈ commonEdges h events, PartOf c a := by
  intro c hc
  unfold commonEdges at hc
  obtain ⟨e, he, hf⟩ := List.mem_filterMap.1 hc
  cases e with
  | right j => cases hf
  | left i =>
    dsimp only at hf
    split at hf
    · rename_i hh
      cases hf
      simp only [Bool.and_eq_true] at hh
      exact P.pieces.first i (P.ok _ he) hh.1
    · cases hf

end Clipping.TreeSweep

import Verif.Lemmas.Shaped.Regions
import Verif.Lemmas.Shaped.Operands

/-!
# Regions without holes side by side
-/

namespace Clipping

open Sweep Darts

namespace Selected

variable {h : Heap ShapedData} {events : List Ev} {S : Selected h events} {processed : ℕ → Bool} {Rs : List (List ℕ)}

namespace RegionsInv

theorem traced₀ (I : RegionsInv S processed Rs ∅) : S.darts.Traced₀ (Finset.range S.darts.n) Rs ∅ :=
  ⟨S.darts_start, I.traces⟩

theorem nth_mem {j : ℕ} (hj : j < Rs.length) : nth Rs j ∈ Rs := by
  unfold nth
  rw [List.getD_eq_getElem _ _ hj]
  exact List.getElem_mem hj

/-- Contours are not nested. -/
theorem anc_empty (I : RegionsInv S processed Rs ∅) {i j : ℕ} (hj : j < Rs.length) : i ∉ S.darts.anc Rs j := by
  intro hi
  have T := I.traced₀
  have hlt := Traced₀.anc_lt hi
  obtain ⟨b, hb⟩ := T.nonempty hj
  have lb := T.lt hj hb
  obtain ⟨x, hx⟩ := T.start.closed.exists_left lb
  obtain ⟨y, hy⟩ := T.start.closed.exists_right lb
  have ix := (T.left_iff hj hb hx (i := i) (by omega)).2 (Or.inl hi)
  have iy := (T.right_iff hj hb hy (i := i) (by omega)).2 hi
  have ex := I.solid _ (nth_mem (by omega)) x hx.off ix
  have ey := I.solid _ (nth_mem (by omega)) y hy.off iy
  exact (T.start.closed.flip T.start.even (T.mem hj hb) hx hy).1 ex ey

theorem contour_spec (I : RegionsInv S processed Rs ∅) {R : List ℕ} (hR : R ∈ Rs) :
    SimpleContour ⟨S.traced R⟩ ∧ contourOrientation ⟨S.traced R⟩ = .counterclockwise ∧
      Coarser (R.map S.darts.seg) (Contour.mk (S.traced R)).edges := by
  obtain ⟨j, hj, rfl⟩ := List.mem_iff_getElem.1 hR
  obtain ⟨Fj, dj, st⟩ := I.traced₀.stage hj
  have := S.traced_spec st.traced st.first
  unfold nth at this
  rwa [List.getD_eq_getElem _ _ hj] at this

theorem range_nth (Rs : List (List ℕ)) : (List.range Rs.length).map (nth Rs) = Rs := by
  apply List.ext_getElem
  · simp
  · intro i h1 h2
    rw [List.getElem_map, List.getElem_range]
    exact List.getD_eq_getElem _ _ h2

theorem region_edges (c : Contour) : (Polygon.mk c []).edges = c.edges := by
  unfold Polygon.edges
  simp

theorem flatMap_edges (cs : List Contour) : (regionPolygons cs).flatMap Polygon.edges = cs.flatMap Contour.edges := by
  unfold regionPolygons
  rw [List.flatMap_map]
  congr 1
  funext c
  exact region_edges c

theorem outline (I : RegionsInv S processed Rs ∅) : S.Outline (regionPolygons (Rs.map fun R => ⟨S.traced R⟩)) := by
  have co : Coarser (Rs.flatMap fun R => R.map S.darts.seg)
      ((regionPolygons (Rs.map fun R => ⟨S.traced R⟩)).flatMap Polygon.edges) := by
    rw [flatMap_edges, List.flatMap_map]
    refine Coarser.flatMap _ _ _ ?_
    intro R hR
    exact (I.contour_spec hR).2.2
  have same : SameEdges (Rs.flatMap fun R => R.map S.darts.seg) (leftEdges h events) := by
    have := I.traced₀.sameEdges
    rw [← range_nth Rs, List.flatMap_map]
    exact this.trans (SameEdges.of_perm S.edges_perm)
  have no : NoOverlap (leftEdges h events) := by
    refine EndsOnly.noOverlap ?_ S.endsOnly
    intro e he
    rw [leftEdges_eq] at he
    obtain ⟨i, hi, rfl⟩ := List.mem_map.1 he
    exact (S.lt i (mem_leftIds.1 hi)).ne
  refine ⟨?_, ?_, co.noOverlap (same.symm.noOverlap no), co.segsPts_eq.trans same.segsPts_eq,
    fun q => (co.inside_iff q).trans (same.inside_iff q)⟩
  · intro p hp
    unfold regionPolygons at hp
    rw [List.map_map] at hp
    obtain ⟨R, hR, rfl⟩ := List.mem_map.1 hp
    exact ⟨(I.contour_spec hR).1, (I.contour_spec hR).2.1⟩
  · intro p hp c hc
    unfold regionPolygons at hp
    obtain ⟨c', -, rfl⟩ := List.mem_map.1 hp
    cases hc

theorem valid (I : RegionsInv S processed Rs ∅) : ValidPolygons (regionPolygons (Rs.map fun R => ⟨S.traced R⟩)) := by
  have O := I.outline
  refine ⟨?_, O.noOverlap, ?_⟩
  · intro p hp
    have hp' := hp
    unfold regionPolygons at hp
    obtain ⟨c, -, rfl⟩ := List.mem_map.1 hp
    refine ⟨(O.border _ hp').1, by simp, ?_, by simp, by simp, List.Pairwise.nil⟩
    refine O.noOverlap.sublist ?_
    have := (List.singleton_sublist.2 hp').flatMap Polygon.edges
    simpa using this
  · unfold regionPolygons
    rw [List.pairwise_map, List.pairwise_map, ← range_nth Rs, List.pairwise_map]
    refine List.Pairwise.imp_of_mem ?_ (List.pairwise_lt_range (n := Rs.length))
    intro i j hi hj hij
    have hj := List.mem_range.1 hj
    obtain ⟨-, -, c1⟩ := I.contour_spec (nth_mem (hij.trans hj))
    obtain ⟨-, -, c2⟩ := I.contour_spec (nth_mem hj)
    obtain ⟨a, b⟩ := I.traced₀.apart hij hj (I.anc_empty hj)
    simp only [region_edges]
    exact ⟨TraceInv.apart_same c1.segsPts_eq c1.inside_iff c2.segsPts_eq c2.inside_iff a,
      TraceInv.apart_same c2.segsPts_eq c2.inside_iff c1.segsPts_eq c1.inside_iff b⟩

end RegionsInv

end Selected

end Clipping

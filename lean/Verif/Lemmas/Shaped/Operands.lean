import Verif.Lemmas.Shaped.Select
import Verif.Lemmas.Mixed.Result
import Verif.Model.Holey

/-!
# Sweeps of polygons and of regions
-/

namespace Clipping

open Sweep

theorem SameEdges.mem' {A B : List Segment} (h : SameEdges A B) {e : Segment} (he : e ∈ A) :
    ∃ e' ∈ B, e'.pts = e.pts ∧ ∀ p, e'.IsEnd p ↔ e.IsEnd p := by
  obtain ⟨e', he', hn⟩ := List.mem_map.1 (h.mem_iff.1 (List.mem_map_of_mem he))
  refine ⟨e', he', by rw [← e'.pts_norm, hn, e.pts_norm], fun p => ?_⟩
  have h1 : e'.lo = e.lo := congrArg Segment.start hn
  have h2 : e'.hi = e.hi := congrArg Segment.stop hn
  rw [Segment.isEnd_iff, Segment.isEnd_iff, h1, h2]

theorem SameEdges.vertex {A B : List Segment} (h : SameEdges A B) {p : Point} (hv : Vertex A p) : Vertex B p := by
  rcases hv with ⟨s, hs, he⟩ | ⟨s, hs, t, ht, he⟩
  · obtain ⟨s', hs', -, h2⟩ := h.mem' hs
    exact Or.inl ⟨s', hs', (h2 p).2 he⟩
  · obtain ⟨s', hs', h1, -⟩ := h.mem' hs
    obtain ⟨t', ht', h2, -⟩ := h.mem' ht
    exact Or.inr ⟨s', hs', t', ht', by rw [h1, h2, he]⟩

theorem SameEdges.combined {A B A' B' : List Segment} (h : SameEdges A A') (h' : SameEdges B B')
    (op : Bool → Bool → Bool) (m : Point) : Combined op A B m ↔ Combined op A' B' m := by
  unfold Combined
  rw [decide_eq_decide.2 (h.inside_iff m), decide_eq_decide.2 (h'.inside_iff m)]

theorem IsBoundaryOf.congr {op : Bool → Bool → Bool} {A B A' B' T : List Segment} (hT : IsBoundaryOf op A B T)
    (h : SameEdges A A') (h' : SameEdges B B') : IsBoundaryOf op A' B' T := by
  have hs : SameEdges (A ++ B) (A' ++ B') := h.append h'
  refine ⟨hT.proper, fun t ht => ?_, hT.endsOnly, hT.even, fun q hq => ?_, fun m hv => ?_⟩
  · obtain ⟨e, he, hte⟩ := hT.parts t ht
    obtain ⟨e', he', h1, -⟩ := hs.mem' he
    exact ⟨e', he', by rw [h1]; exact hte⟩
  · rw [← hs.segsPts_eq] at hq
    rw [hT.inside q hq, h.combined h']
  · rw [hT.separates m fun hv' => hv (hs.vertex hv')]
    unfold Separates
    rw [hs.segsPts_eq]
    simp only [h.combined h']

theorem ValidPolygons.sameEdges {ps : List Polygon} (h : ValidPolygons ps) :
    SameEdges (ps.flatMap polygonEdges) (ps.flatMap Polygon.edges) :=
  SameEdges.flatMap _ _ _ fun p hp => (h.valid p hp).sameEdges

theorem ValidPolygons.edges_x {ps : List Polygon} (h : ValidPolygons ps) {m : ℚ} (hm : ∀ q ∈ polysPts ps, q.x ≤ m) :
    ∀ q ∈ segsPts (ps.flatMap polygonEdges), q.x ≤ m := by
  intro q hq
  have : q ∈ regionPts (ps.flatMap polygonEdges) := Or.inl hq
  rw [h.pts_eq] at this
  exact hm q this

/-- The sweep of polygons. -/
theorem holeySweep_end {rule : ShapedRule} {op : Bool → Bool → Bool} (hr : RuleOk rule) (hop : RuleFor rule op) (tb : TieBreak)
    {xmax : Option ℚ} {P Q : List Polygon} (hP : ValidPolygons P) (hQ : ValidPolygons Q)
    (hst : StopOk op xmax (P.flatMap polygonEdges) (Q.flatMap polygonEdges)) :
    ∃ h events, holeySweep rule tb xmax P Q = .ok (h, events) ∧
      ShapedEnd op h events (stopAt xmax) (P.flatMap polygonEdges) (Q.flatMap polygonEdges) :=
  shapedSweep_end (isShaped_holey hr) hop tb xmax hP.isBoundary hQ.isBoundary hst

theorem stopOk_none (op : Bool → Bool → Bool) (A B : List Segment) : StopOk op none A B := by
  intro xm h; cases h

theorem stopOk_first {op : Bool → Bool → Bool} {A B : List Segment} {m : ℚ} (hA : ∀ q ∈ segsPts A, q.x ≤ m)
    (h : ∀ x, op false x = op false false) : StopOk op (some m) A B := by
  intro xm hx
  cases hx
  exact ⟨Or.inl hA, Or.inr ⟨hA, h⟩⟩

theorem stopOk_min {op : Bool → Bool → Bool} {A B : List Segment} {m₁ m₂ : ℚ} (hA : ∀ q ∈ segsPts A, q.x ≤ m₁)
    (hB : ∀ q ∈ segsPts B, q.x ≤ m₂) (h₁ : ∀ x, op false x = op false false) (h₂ : ∀ x, op x false = op false false) :
    StopOk op (some (min m₁ m₂)) A B := by
  intro xm hx
  cases hx
  rcases le_total m₁ m₂ with h | h
  · rw [min_eq_left h]
    exact ⟨Or.inl hA, Or.inr ⟨hA, h₁⟩⟩
  · rw [min_eq_right h]
    exact ⟨Or.inr ⟨hB, h₂⟩, Or.inl hB⟩

/-- Regions as polygons without holes. -/
def regionPolygons (regions : List Contour) : List Polygon := regions.map fun c => ⟨c, []⟩

theorem regionPolygons_edges (regions : List Contour) :
    (regionPolygons regions).flatMap polygonEdges = regionsEdges regions := by
  unfold regionPolygons regionsEdges
  rw [List.flatMap_map]
  congr 1
  funext c
  simp [polygonEdges]

theorem regionPolygons_maxX (regions : List Contour) : polygonsMaxX (regionPolygons regions) = regionsMaxX regions := by
  unfold polygonsMaxX regionsMaxX regionPolygons
  rw [List.flatMap_map]
  rfl

/-- The sweep of regions. -/
theorem holelessSweep_end (tb : TieBreak) {P Q : List Contour} (hP : ValidPolygons (regionPolygons P))
    (hQ : ValidPolygons (regionPolygons Q)) (nP : P ≠ []) (nQ : Q ≠ []) :
    ∃ xmax h events, holelessSweep tb P Q = .ok (h, events) ∧
      ShapedEnd (fun a b => a && b) h events (stopAt xmax) (regionsEdges P) (regionsEdges Q) := by
  obtain ⟨m₁, e₁, h₁⟩ := polygonsMaxX_spec hP.valid (by simpa [regionPolygons] using nP)
  obtain ⟨m₂, e₂, h₂⟩ := polygonsMaxX_spec hQ.valid (by simpa [regionPolygons] using nQ)
  have bP := hP.isBoundary
  have bQ := hQ.isBoundary
  have g₁ := hP.edges_x h₁
  have g₂ := hQ.edges_x h₂
  rw [regionPolygons_edges] at bP bQ g₁ g₂
  rw [regionPolygons_maxX] at e₁ e₂
  obtain ⟨h, events, e, E⟩ := shapedSweep_end (isShaped_holeless intersectionRule_ok) intersectionRule_for tb
    (some (min m₁ m₂)) bP bQ (stopOk_min g₁ g₂ (by simp) (by simp))
  refine ⟨_, h, events, ?_, E⟩
  unfold holelessSweep
  rw [e₁, e₂]
  exact e

end Clipping

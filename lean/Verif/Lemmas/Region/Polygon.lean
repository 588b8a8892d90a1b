import Verif.Lemmas.Region.Oriented

/-!
# Directed edges of valid polygons are boundaries
-/

namespace Clipping

open Sweep

/-! ## Edges up to order and direction -/

theorem norm_lo (s : Segment) : s.norm.lo = s.lo := by
  unfold Segment.norm
  exact min_eq_left (min_le_max)

theorem norm_hi (s : Segment) : s.norm.hi = s.hi := by
  unfold Segment.norm
  exact max_eq_right (min_le_max)

theorem norm_swap (s : Segment) : s.swap.norm = s.norm := by
  unfold Segment.norm; rw [s.swap_lo, s.swap_hi]

theorem norm_proper {s : Segment} : s.norm.Proper ↔ s.Proper := by
  unfold Segment.norm Segment.Proper
  rcases s.lo_hi_cases with ⟨h1, h2, -⟩ | ⟨h1, h2, -⟩ <;> rw [h1, h2]
  exact ne_comm

/-- The same edges, up to order and directions. -/
def SameEdges (A B : List Segment) : Prop := (A.map Segment.norm).Perm (B.map Segment.norm)

namespace SameEdges

theorem of_perm {A B : List Segment} (h : A.Perm B) : SameEdges A B := h.map _

theorem of_swap (A : List Segment) : SameEdges (A.map Segment.swap) A := by
  unfold SameEdges
  rw [List.map_map]
  have : Segment.norm ∘ Segment.swap = Segment.norm := funext norm_swap
  rw [this]

theorem trans {A B C : List Segment} (h : SameEdges A B) (h' : SameEdges B C) : SameEdges A C := List.Perm.trans h h'

theorem symm {A B : List Segment} (h : SameEdges A B) : SameEdges B A := List.Perm.symm h

theorem append {A B A' B' : List Segment} (h : SameEdges A A') (h' : SameEdges B B') :
    SameEdges (A ++ B) (A' ++ B') := by
  unfold SameEdges
  rw [List.map_append, List.map_append]
  exact List.Perm.append h h'

theorem flatMap {ι : Type} (l : List ι) (f g : ι → List Segment) (h : ∀ i ∈ l, SameEdges (f i) (g i)) :
    SameEdges (l.flatMap f) (l.flatMap g) := by
  induction l with
  | nil => exact List.Perm.refl _
  | cons i l ih =>
    rw [List.flatMap_cons, List.flatMap_cons]
    exact (h i (by simp)).append (ih fun j hj => h j (by simp [hj]))

theorem norm_pts (A : List Segment) : segsPts (A.map Segment.norm) = segsPts A := by
  ext q
  constructor
  · rintro ⟨s, hs, hq⟩
    obtain ⟨t, ht, rfl⟩ := List.mem_map.1 hs
    exact ⟨t, ht, by rwa [t.pts_norm] at hq⟩
  · rintro ⟨s, hs, hq⟩
    exact ⟨s.norm, List.mem_map_of_mem hs, by rwa [s.pts_norm]⟩

theorem norm_inside (A : List Segment) (m : Point) : Inside (A.map Segment.norm) m ↔ Inside A m := by
  unfold Inside
  rw [List.countP_map]
  have : ((fun e => decide (IsBelow e m)) ∘ Segment.norm) = fun e => decide (IsBelow e m) := by
    funext e
    simp only [Function.comp]
    rw [decide_eq_decide]
    unfold IsBelow
    rw [norm_lo, norm_hi]
  rw [this]

theorem segsPts_eq {A B : List Segment} (h : SameEdges A B) : segsPts A = segsPts B := by
  rw [← norm_pts A, ← norm_pts B, segsPts_perm h]

theorem inside_iff {A B : List Segment} (h : SameEdges A B) (m : Point) : Inside A m ↔ Inside B m := by
  rw [← norm_inside A, ← norm_inside B, inside_perm h]

theorem regionPts_eq {A B : List Segment} (h : SameEdges A B) : regionPts A = regionPts B := by
  ext m; unfold regionPts; simp only [Set.mem_ofPred_eq]; rw [h.segsPts_eq, h.inside_iff]

theorem noOverlap_norm {A : List Segment} : NoOverlap (A.map Segment.norm) ↔ NoOverlap A := by
  unfold NoOverlap
  rw [List.pairwise_map]
  refine and_congr ?_ ?_
  · simp only [List.forall_mem_map, norm_proper]
  · have : ∀ s t : Segment, Overlapping s.norm t.norm ↔ Overlapping s t := fun s t =>
      overlapping_congr s.pts_norm t.pts_norm
    simp only [this]

theorem noOverlap {A B : List Segment} (h : SameEdges A B) (hA : NoOverlap A) : NoOverlap B :=
  noOverlap_norm.1 ((noOverlap_norm.2 hA).perm h)

theorem apart {A B A' B' : List Segment} (h : SameEdges A A') (h' : SameEdges B B') (ab : Apart A B) : Apart A' B' :=
  ab.congr h.regionPts_eq h'.segsPts_eq h'.inside_iff

end SameEdges

/-! ## Contours -/

/-- vertices with indices modulo their number -/
def vtx (c : Contour) (i : ℕ) : Point := vertexAt c.vertices (i % c.vertices.length)

theorem vtx_of_lt {c : Contour} {i : ℕ} (h : i < c.vertices.length) : vtx c i = c.vertices[i] := by
  unfold vtx vertexAt
  rw [Nat.mod_eq_of_lt h, List.getD_eq_getElem?_getD, List.getElem?_eq_getElem h]; rfl

theorem vtx_add (c : Contour) (i : ℕ) : vtx c (i + c.vertices.length) = vtx c i := by
  unfold vtx; rw [Nat.add_mod_right]

theorem vtx_mod (c : Contour) (i : ℕ) : vtx c (i % c.vertices.length) = vtx c i := by
  unfold vtx; rw [Nat.mod_mod]

theorem vtx_mod_succ (c : Contour) (i : ℕ) : vtx c (i % c.vertices.length + 1) = vtx c (i + 1) := by
  unfold vtx; rw [Nat.mod_add_mod]

theorem contour_edges_eq (c : Contour) : c.edges = cycEdges (vtx c) 0 c.vertices.length := by
  obtain ⟨V⟩ := c
  cases V with
  | nil => rfl
  | cons v vs =>
    unfold Contour.edges cycEdges
    refine List.ext_getElem (by simp) ?_
    intro i h1 h2
    simp only [List.length_map, List.length_range, List.length_cons] at h2
    simp only [List.getElem_zipWith, List.getElem_map, List.getElem_range, Nat.zero_add]
    congr 1
    · rw [vtx_of_lt (by simpa using h2)]
    · by_cases hi : i + 1 < vs.length + 1
      · rw [vtx_of_lt (by simpa using hi)]
        simp only [List.getElem_cons_succ]
        rw [List.getElem_append_left (by omega)]
      · have : i = vs.length := by omega
        subst this
        unfold vtx vertexAt
        simp

theorem contourSegments_eq (c : Contour) :
    contourSegments c = cycEdges (vtx c) (c.vertices.length - 1) c.vertices.length := by
  unfold contourSegments cycEdges
  apply List.map_congr_left
  intro i hi
  rw [List.mem_range] at hi
  have e1 : vtx c (c.vertices.length - 1 + i + 1) = vertexAt c.vertices i := by
    rw [show c.vertices.length - 1 + i + 1 = i + c.vertices.length by omega, vtx_add]
    unfold vtx; rw [Nat.mod_eq_of_lt hi]
  have e2 : vtx c (c.vertices.length - 1 + i) = vertexBefore c.vertices i := by
    unfold vertexBefore
    by_cases h0 : i = 0
    · rw [if_pos h0, h0]
      unfold vtx; rw [Nat.mod_eq_of_lt (by omega)]; rfl
    · rw [if_neg h0, show c.vertices.length - 1 + i = i - 1 + c.vertices.length by omega, vtx_add]
      unfold vtx; rw [Nat.mod_eq_of_lt (by omega)]
  rw [e1, e2]

theorem SimpleContour.cyc {c : Contour} (h : SimpleContour c) : Cyc c.vertices.length (vtx c) where
  three := h.three
  period := vtx_add c
  inj i j hij := by
    have hn : 0 < c.vertices.length := by have := h.three; omega
    rw [← vtx_mod c i, ← vtx_mod c j, vtx_of_lt (Nat.mod_lt _ hn), vtx_of_lt (Nat.mod_lt _ hn)] at hij
    exact (h.nodup.getElem_inj_iff).1 hij
  ends i j hij q h1 h2 := by
    have hn : 0 < c.vertices.length := by have := h.three; omega
    have he := h.ends
    rw [contour_edges_eq] at he
    unfold EndsOnly at he
    rw [List.pairwise_iff_getElem] at he
    have hl : (cycEdges (vtx c) 0 c.vertices.length).length = c.vertices.length := by unfold cycEdges; simp
    have g : ∀ k, (hk : k < (cycEdges (vtx c) 0 c.vertices.length).length) →
        (cycEdges (vtx c) 0 c.vertices.length)[k] = ⟨vtx c k, vtx c (k + 1)⟩ := by
      intro k hk; unfold cycEdges; simp
    rw [← vtx_mod c i, ← vtx_mod_succ c i] at h1 ⊢
    rw [← vtx_mod c j, ← vtx_mod_succ c j] at h2 ⊢
    have li : i % c.vertices.length < (cycEdges (vtx c) 0 c.vertices.length).length := by
      rw [hl]; exact Nat.mod_lt _ hn
    have lj : j % c.vertices.length < (cycEdges (vtx c) 0 c.vertices.length).length := by
      rw [hl]; exact Nat.mod_lt _ hn
    rcases lt_or_gt_of_ne hij with h | h
    · have := he _ _ li lj h q
      rw [g, g] at this
      exact this h1 h2
    · have := he _ _ lj li h q
      rw [g, g] at this
      exact (this h2 h1).symm

theorem SimpleContour.segments_perm {c : Contour} (h : SimpleContour c) : (contourSegments c).Perm c.edges := by
  rw [contourSegments_eq, contour_edges_eq]
  exact h.cyc.rotate _

theorem minIndex_spec {V : List Point} (h : V ≠ []) : ∃ hi : minIndex V < V.length, ∀ w ∈ V, V[minIndex V] ≤ w := by
  have ex : ∃ v ∈ V, (V.all fun w => decide (v ≤ w)) = true := by
    have : ∃ v ∈ V, ∀ w ∈ V, v ≤ w := by
      clear * - h
      induction V with
      | nil => exact absurd rfl h
      | cons v V ih =>
        cases V with
        | nil => exact ⟨v, by simp, by simp⟩
        | cons u V =>
          obtain ⟨m, hm, hle⟩ := ih (by simp)
          rcases le_total v m with h | h
          · refine ⟨v, by simp, ?_⟩
            intro w hw
            rcases List.mem_cons.1 hw with rfl | hw
            · exact le_refl _
            · exact h.trans (hle w hw)
          · refine ⟨m, List.mem_cons_of_mem _ hm, ?_⟩
            intro w hw
            rcases List.mem_cons.1 hw with rfl | hw
            · exact h
            · exact hle w hw
    obtain ⟨v, hv, hw⟩ := this
    exact ⟨v, hv, by simpa using hw⟩
  have hi : minIndex V < V.length := List.findIdx_lt_length.2 ex
  refine ⟨hi, ?_⟩
  have := List.findIdx_getElem (w := hi)
  simp only [List.all_eq_true, decide_eq_true_eq] at this
  exact this

theorem contourEdges_swap (c : Contour) (b : Bool) :
    contourEdges c b = contourSegments c ∨ (contourEdges c b).Perm ((contourSegments c).map Segment.swap) := by
  unfold contourEdges
  dsimp only
  split_ifs <;> first | exact Or.inl rfl | skip
  all_goals
    right
    unfold contourSegments
    rw [List.map_map]
    exact (List.reverse_perm _).map _

theorem SimpleContour.sameEdges {c : Contour} (h : SimpleContour c) (b : Bool) : SameEdges (contourEdges c b) c.edges := by
  rcases contourEdges_swap c b with e | e
  · rw [e]; exact SameEdges.of_perm h.segments_perm
  · exact (SameEdges.of_perm e).trans ((SameEdges.of_swap _).trans (SameEdges.of_perm h.segments_perm))

theorem SimpleContour.noOverlap {c : Contour} (h : SimpleContour c) : NoOverlap c.edges := by
  have hp : ∀ e ∈ c.edges, e.Proper := by rw [contour_edges_eq]; exact h.cyc.all_proper _ _
  refine ⟨hp, ?_⟩
  refine List.Pairwise.imp_of_mem ?_ h.ends
  intro s t hs ht hst
  exact (endsOnly_not (hp s hs) (hp t ht) hst).1

/-- The orientation computed at the least vertex tells on which side of the edges the interior is. -/
theorem SimpleContour.orientation_spec {c : Contour} (h : SimpleContour c) :
    contourOrientation c ≠ .collinear ∧ ∀ k m, m ∈ (Segment.mk (vtx c k) (vtx c (k + 1))).pts →
      ¬ (Segment.mk (vtx c k) (vtx c (k + 1))).IsEnd m →
      (LeftAt c.vertices.length (vtx c) k m ↔ contourOrientation c = .counterclockwise) := by
  have three := h.three
  have hV : c.vertices ≠ [] := by intro e; rw [e] at three; simp at three
  obtain ⟨hi, hmin⟩ := minIndex_spec hV
  set i := minIndex c.vertices with hidef
  set n := c.vertices.length with hn
  have e1 : vertexBefore c.vertices i = vtx c (i + n - 1) := by
    unfold vertexBefore
    by_cases h0 : i = 0
    · rw [if_pos h0, h0, Nat.zero_add, ← hn]
      unfold vtx; rw [Nat.mod_eq_of_lt (by omega)]
    · rw [if_neg h0, show i + n - 1 = i - 1 + n by omega, hn, vtx_add]
      unfold vtx; rw [Nat.mod_eq_of_lt (by omega)]
  have e2 : vertexAt c.vertices i = vtx c (i + n - 1 + 1) := by
    rw [show i + n - 1 + 1 = i + n by omega, hn, vtx_add]
    unfold vtx; rw [Nat.mod_eq_of_lt (by omega)]
  have e3 : vertexAt c.vertices ((i + 1) % n) = vtx c (i + n - 1 + 2) := by
    rw [show i + n - 1 + 2 = i + 1 + n by omega, hn, vtx_add]
    rfl
  have eo : contourOrientation c = orientation (vtx c (i + n - 1)) (vtx c (i + n - 1 + 1)) (vtx c (i + n - 1 + 2)) := by
    rw [← e1, ← e2, ← e3]; rfl
  have hk : ∀ j, vtx c (i + n - 1 + 1) ≤ vtx c j := by
    intro j
    rw [show i + n - 1 + 1 = i + n by omega, hn, vtx_add, ← vtx_mod c j, vtx_of_lt hi,
      vtx_of_lt (Nat.mod_lt _ (by omega))]
    exact hmin _ (List.getElem_mem _)
  obtain ⟨m₁, hm₁, hi₁⟩ := h.cyc.inner (i + n - 1)
  obtain ⟨l1, l2⟩ := h.cyc.least (i + n - 1) hk hm₁ hi₁
  refine ⟨?_, ?_⟩
  · rw [eo]; intro hc; exact l1 (orientation_col.1 hc)
  · intro k m hm hi
    obtain ⟨m₀, hm₀, hi₀⟩ := h.cyc.inner 0
    rw [← h.cyc.same k hm₀ hi₀ hm hi, h.cyc.same (i + n - 1) hm₀ hi₀ hm₁ hi₁, l2, eo, orientation_ccw]

theorem SimpleContour.isBoundary {c : Contour} (h : SimpleContour c) : IsBoundary (contourEdges c false) where
  noOverlap := (h.sameEdges false).symm.noOverlap h.noOverlap
  even q := by
    have h0 : Even (degree (contourSegments c) q) := by rw [contourSegments_eq]; exact h.cyc.even _ q
    rcases contourEdges_swap c false with e | e
    · rw [e]; exact h0
    · rw [degree_perm e, degree_swap]; exact h0
  left e he m hm hme _ := by
    obtain ⟨o1, o2⟩ := h.orientation_spec
    rw [(h.sameEdges false).inside_iff, contour_edges_eq]
    unfold contourEdges at he
    simp only [Bool.false_eq_true, if_false] at he
    split at he
    · rename_i ho
      have he' : e ∈ contourSegments c := he
      rw [contourSegments_eq] at he'
      obtain ⟨i, -, rfl⟩ := mem_cycEdges.1 he'
      exact (o2 _ m hm hme).2 ho
    · rename_i ho
      have he' : e.swap ∈ contourSegments c := by
        obtain ⟨i, hi, rfl⟩ := List.mem_map.1 he
        exact List.mem_map.2 ⟨i, List.mem_reverse.1 hi, rfl⟩
      rw [contourSegments_eq] at he'
      obtain ⟨i, -, hi⟩ := mem_cycEdges.1 he'
      set k := c.vertices.length - 1 + i with hk
      have hm' : m ∈ (Segment.mk (vtx c k) (vtx c (k + 1))).pts := by rw [← hi, e.swap_pts]; exact hm
      have hme' : ¬ (Segment.mk (vtx c k) (vtx c (k + 1))).IsEnd m := by rw [← hi, e.swap_isEnd]; exact hme
      have := fun hl => ho ((o2 _ m hm' hme').1 hl)
      unfold LeftAt at this
      have e1 : e.stop = vtx c k := congrArg Segment.start hi
      have e2 : e.start = vtx c (k + 1) := congrArg Segment.stop hi
      have ne := h.cyc.proper k
      rw [e1, e2]
      have lt : vtx c (k + 1) < vtx c k ↔ ¬ vtx c k < vtx c (k + 1) :=
        ⟨fun h => h.asymm, fun h => lt_of_le_of_ne (not_lt.1 h) ne.symm⟩
      rw [lt]
      tauto

/-- Clockwise edges are the counterclockwise ones, reversed. -/
theorem SimpleContour.clockwise {c : Contour} (h : SimpleContour c) :
    (contourEdges c true).Perm ((contourEdges c false).map Segment.swap) := by
  obtain ⟨o1, -⟩ := h.orientation_spec
  have e : ∀ l : List ℕ, (l.map fun i => (⟨vertexAt c.vertices i, vertexBefore c.vertices i⟩ : Segment)) =
      (l.map fun i => (⟨vertexBefore c.vertices i, vertexAt c.vertices i⟩ : Segment)).map Segment.swap := by
    intro l; rw [List.map_map]; rfl
  unfold contourEdges
  simp only [Bool.false_eq_true, if_false, if_true]
  cases ho : contourOrientation c with
  | collinear => exact absurd ho o1
  | clockwise =>
    simp only [if_true, reduceCtorEq, if_false]
    rw [e, List.map_map]
    have : Segment.swap ∘ Segment.swap = id := funext Segment.swap_swap
    rw [this, List.map_id]
    exact ((List.reverse_perm _).map _).symm
  | counterclockwise =>
    simp only [if_true, reduceCtorEq, if_false]
    rw [e]
    exact ((List.reverse_perm _).map _).map _

/-! ## Polygons -/

section

variable {ι : Type}

theorem inside_flatMap_not {l : List ι} {f : ι → List Segment} {m : Point} (h : ∀ i ∈ l, ¬ Inside (f i) m) :
    ¬ Inside (l.flatMap f) m := by
  induction l with
  | nil => exact inside_nil m
  | cons i l ih =>
    rw [List.flatMap_cons, inside_append]
    have h1 := h i (by simp)
    have h2 := ih fun j hj => h j (by simp [hj])
    tauto

theorem segsPts_flatMap {l : List ι} {f : ι → List Segment} {m : Point} :
    m ∈ segsPts (l.flatMap f) ↔ ∃ i ∈ l, m ∈ segsPts (f i) := by
  constructor
  · rintro ⟨s, hs, hm⟩
    obtain ⟨i, hi, hs'⟩ := List.mem_flatMap.1 hs
    exact ⟨i, hi, s, hs', hm⟩
  · rintro ⟨i, hi, s, hs, hm⟩
    exact ⟨s, List.mem_flatMap.2 ⟨i, hi, hs⟩, hm⟩

/-- one region and several others -/
theorem Apart.flatMap_right {A : List Segment} {l : List ι} {f : ι → List Segment} (h : ∀ i ∈ l, Apart A (f i)) :
    Apart A (l.flatMap f) := by
  induction l with
  | nil => exact apart_nil_right _
  | cons i l ih =>
    rw [List.flatMap_cons]
    exact (h i (by simp)).append_right (ih fun j hj => h j (by simp [hj]))

theorem Apart.flatMap_left {A : List Segment} {l : List ι} {f : ι → List Segment} (h : ∀ i ∈ l, Apart (f i) A)
    (hp : l.Pairwise fun i j => Apart (f i) (f j) ∧ Apart (f j) (f i)) : Apart (l.flatMap f) A := by
  induction l with
  | nil => exact apart_nil_left _
  | cons i l ih =>
    rw [List.flatMap_cons]
    rw [List.pairwise_cons] at hp
    exact (h i (by simp)).append_left (ih (fun j hj => h j (by simp [hj])) hp.2)
      (Apart.flatMap_right fun j hj => (hp.1 j hj).1)

theorem regionPts_flatMap {l : List ι} {f : ι → List Segment}
    (hp : l.Pairwise fun i j => Apart (f i) (f j) ∧ Apart (f j) (f i)) (m : Point) :
    m ∈ regionPts (l.flatMap f) ↔ ∃ i ∈ l, m ∈ regionPts (f i) := by
  induction l with
  | nil => simp [regionPts_nil]
  | cons i l ih =>
    rw [List.pairwise_cons] at hp
    rw [List.flatMap_cons, regionPts_append (Apart.flatMap_right fun j hj => (hp.1 j hj).1), Set.mem_union, ih hp.2]
    simp

theorem IsBoundary.nil : IsBoundary [] :=
  ⟨⟨by simp, by simp⟩, fun q => by simp [degree], by simp⟩

theorem IsBoundary.flatMap {l : List ι} {f : ι → List Segment} (hb : ∀ i ∈ l, IsBoundary (f i))
    (no : NoOverlap (l.flatMap f)) (hp : l.Pairwise fun i j => Apart (f i) (f j) ∧ Apart (f j) (f i)) :
    IsBoundary (l.flatMap f) := by
  induction l with
  | nil => exact IsBoundary.nil
  | cons i l ih =>
    rw [List.flatMap_cons] at no ⊢
    rw [List.pairwise_cons] at hp
    exact (hb i (by simp)).append (ih (fun j hj => hb j (by simp [hj])) (no.sublist (List.sublist_append_right _ _)) hp.2)
      no (Apart.flatMap_right fun j hj => (hp.1 j hj).1) (Apart.flatMap_left (fun j hj => (hp.1 j hj).2) hp.2)

end

theorem ValidPolygon.sameEdges {p : Polygon} (h : ValidPolygon p) : SameEdges (polygonEdges p) p.edges := by
  unfold polygonEdges Polygon.edges
  exact (h.border.sameEdges _).append (SameEdges.flatMap _ _ _ fun c hc => (h.holes c hc).sameEdges _)

theorem ValidPolygon.isBoundary {p : Polygon} (h : ValidPolygon p) : IsBoundary (polygonEdges p) := by
  set B := p.holes.flatMap fun c => contourEdges c false with hB
  have hs : SameEdges (p.holes.flatMap fun c => contourEdges c true) B := SameEdges.flatMap _ _ _ fun c hc =>
    ((h.holes c hc).sameEdges _).trans ((h.holes c hc).sameEdges _).symm
  have hE : SameEdges B (p.holes.flatMap Contour.edges) :=
    SameEdges.flatMap _ _ _ fun c hc => (h.holes c hc).sameEdges _
  have hperm : (polygonEdges p).Perm (contourEdges p.border false ++ B.map Segment.swap) := by
    unfold polygonEdges
    refine List.Perm.append_left _ ?_
    rw [hB, List.map_flatMap]
    clear * - h
    have := h.holes
    generalize p.holes = l at this
    induction l with
    | nil => exact List.Perm.refl _
    | cons c l ih =>
      rw [List.flatMap_cons, List.flatMap_cons]
      exact (this c (by simp)).clockwise.append (ih fun d hd => this d (by simp [hd]))
  have no := h.sameEdges.symm.noOverlap h.noOverlap
  have noB : NoOverlap B := hE.symm.noOverlap (h.noOverlap.sublist (List.sublist_append_right _ _))
  have hBb : IsBoundary B := by
    refine IsBoundary.flatMap (fun c hc => (h.holes c hc).isBoundary) noB ?_
    refine h.apart.imp_of_mem ?_
    intro c d hc hd hcd
    have e1 := ((h.holes c hc).sameEdges false).symm
    have e2 := ((h.holes d hd).sameEdges false).symm
    exact ⟨e1.apart e2 hcd.1, e2.apart e1 hcd.2⟩
  refine (IsBoundary.holes h.border.isBoundary hBb (no.perm hperm) ?_ ?_).perm hperm.symm
  · intro m hm
    rw [hE.segsPts_eq, segsPts_flatMap] at hm
    obtain ⟨c, hc, hm⟩ := hm
    rw [(h.border.sameEdges false).regionPts_eq]
    exact h.inside c hc (Or.inl hm)
  · intro m hm hn
    rw [hE.segsPts_eq, segsPts_flatMap] at hn
    push Not at hn
    rw [hE.inside_iff]
    rw [(h.border.sameEdges false).segsPts_eq] at hm
    exact inside_flatMap_not fun c hc => h.outside c hc m hm (hn c hc)

/-- points of a polygon in terms of its directed edges -/
theorem ValidPolygon.pts_eq {p : Polygon} (h : ValidPolygon p) : regionPts (polygonEdges p) = p.pts := by
  rw [h.sameEdges.regionPts_eq]
  rfl

theorem ValidPolygons.sublist {ps qs : List Polygon} (h : ValidPolygons ps) (hs : qs.Sublist ps) : ValidPolygons qs where
  valid p hp := h.valid p (hs.subset hp)
  noOverlap := h.noOverlap.sublist (hs.flatMap _)
  apart := h.apart.sublist hs

theorem ValidPolygons.isBoundary {ps : List Polygon} (h : ValidPolygons ps) : IsBoundary (ps.flatMap polygonEdges) := by
  have hs : SameEdges (ps.flatMap polygonEdges) (ps.flatMap Polygon.edges) :=
    SameEdges.flatMap _ _ _ fun p hp => (h.valid p hp).sameEdges
  refine IsBoundary.flatMap (fun p hp => (h.valid p hp).isBoundary) (hs.symm.noOverlap h.noOverlap) ?_
  refine h.apart.imp_of_mem ?_
  intro p q hp hq hpq
  have e1 := (h.valid p hp).sameEdges.symm
  have e2 := (h.valid q hq).sameEdges.symm
  exact ⟨e1.apart e2 hpq.1, e2.apart e1 hpq.2⟩

theorem ValidPolygons.pts_eq {ps : List Polygon} (h : ValidPolygons ps) :
    regionPts (ps.flatMap polygonEdges) = {m | ∃ p ∈ ps, m ∈ p.pts} := by
  have hs : SameEdges (ps.flatMap polygonEdges) (ps.flatMap Polygon.edges) :=
    SameEdges.flatMap _ _ _ fun p hp => (h.valid p hp).sameEdges
  rw [hs.regionPts_eq]
  ext m
  rw [regionPts_flatMap h.apart]
  rfl

end Clipping

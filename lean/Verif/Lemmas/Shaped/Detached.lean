import Verif.Lemmas.Shaped.Result

/-!
# Polygons the contours of which do not touch each other
-/

namespace Clipping

theorem degree_off {E : List Segment} {q : Point} (h : q ∉ segsPts E) : degree E q = 0 := by
  unfold degree
  rw [List.countP_eq_zero.2, List.countP_eq_zero.2]
  · intro e he
    rw [decide_eq_true_eq]
    rintro rfl
    exact h ⟨e, he, Segment.stop_mem e⟩
  · intro e he
    rw [decide_eq_true_eq]
    rintro rfl
    exact h ⟨e, he, Segment.start_mem e⟩

namespace SimpleContour

variable {c : Contour} (hc : SimpleContour c)

include hc

theorem degree_le (q : Point) : degree c.edges q ≤ 2 := by
  have nd := hc.nodup
  have h1 : (c.edges.map Segment.start).Nodup ∧ (c.edges.map Segment.stop).Nodup := by
    unfold Contour.edges
    split
    · simp
    · rename_i v vs hv
      rw [hv] at nd
      rw [List.map_zipWith, List.map_zipWith]
      constructor
      · have : List.zipWith (fun a b => (Segment.mk a b).start) (v :: vs) (vs ++ [v]) = v :: vs := by
          apply List.ext_getElem <;> simp
        rw [this]; exact nd
      · have : List.zipWith (fun a b => (Segment.mk a b).stop) (v :: vs) (vs ++ [v]) = vs ++ [v] := by
          apply List.ext_getElem <;> simp
        rw [this]
        exact (List.perm_append_singleton v vs).nodup_iff.2 nd
  have key : ∀ f : Segment → Point, (c.edges.map f).Nodup → c.edges.countP (fun e => decide (f e = q)) ≤ 1 := by
    intro f nd
    have := List.nodup_iff_count_le_one.1 nd q
    rw [List.count, List.countP_map] at this
    refine le_trans (le_of_eq ?_) this
    apply List.countP_congr
    intro e _
    simp
  have a := key _ h1.1
  have b := key _ h1.2
  unfold degree
  omega

theorem degree_inner {q : Point} {u : Segment} (hu : u ∈ c.edges) (hq : q ∈ u.pts) (hn : ¬ u.IsEnd q) :
    degree c.edges q = 0 := by
  have key : ∀ e ∈ c.edges, ¬ e.IsEnd q := by
    intro e he hend
    have sym : Std.Symm fun s t : Segment => ∀ q, q ∈ s.pts → q ∈ t.pts → s.IsEnd q ∧ t.IsEnd q :=
      ⟨fun a b hab q h1 h2 => (hab q h2 h1).symm⟩
    have hq' : q ∈ e.pts := by
      rcases hend with rfl | rfl
      · exact Segment.start_mem e
      · exact Segment.stop_mem e
    refine hn (hc.ends.forall hu he ?_ q hq hq').1
    rintro rfl
    exact hn hend
  unfold degree
  rw [List.countP_eq_zero.2, List.countP_eq_zero.2]
  · intro e he
    rw [decide_eq_true_eq]
    exact fun h => key e he (Or.inr h.symm)
  · intro e he
    rw [decide_eq_true_eq]
    exact fun h => key e he (Or.inl h.symm)

end SimpleContour

/-- Every point is an end of two edges at most. -/
theorem detached_degree {C : List Contour} (hC : ∀ c ∈ C, SimpleContour c)
    (hd : C.Pairwise fun c d => ∀ q ∈ segsPts c.edges, q ∉ segsPts d.edges) (q : Point) :
    degree (C.flatMap Contour.edges) q ≤ 2 ∧
      ∀ u ∈ C.flatMap Contour.edges, q ∈ u.pts → ¬ u.IsEnd q → degree (C.flatMap Contour.edges) q = 0 := by
  induction C with
  | nil => simp [degree]
  | cons c C ih =>
    obtain ⟨h1, h2⟩ := List.pairwise_cons.1 hd
    obtain ⟨i1, i2⟩ := ih (fun c hc => hC c (by simp [hc])) h2
    have sc := hC c (by simp)
    rw [List.flatMap_cons, degree_append]
    by_cases hq : q ∈ segsPts c.edges
    · have off : q ∉ segsPts (C.flatMap Contour.edges) := by
        rintro ⟨e, he, hqe⟩
        obtain ⟨d, hd', he'⟩ := List.mem_flatMap.1 he
        exact h1 d hd' q hq ⟨e, he', hqe⟩
      rw [degree_off off, add_zero]
      refine ⟨sc.degree_le q, fun u hu hqu hn => ?_⟩
      rcases List.mem_append.1 hu with hu | hu
      · exact sc.degree_inner hu hqu hn
      · exact absurd ⟨u, hu, hqu⟩ off
    · rw [degree_off hq, zero_add]
      refine ⟨i1, fun u hu hqu hn => ?_⟩
      rcases List.mem_append.1 hu with hu | hu
      · exact absurd ⟨u, hu, hqu⟩ hq
      · exact i2 u hu hqu hn

theorem Detached.degree {P : List Polygon} (h : Detached P) (hP : ValidPolygons P) (q : Point) :
    Clipping.degree (P.flatMap Polygon.edges) q ≤ 2 ∧
      ∀ u ∈ P.flatMap Polygon.edges, q ∈ u.pts → ¬ u.IsEnd q → Clipping.degree (P.flatMap Polygon.edges) q = 0 := by
  have e : P.flatMap Polygon.edges = (P.flatMap fun p => p.border :: p.holes).flatMap Contour.edges := by
    rw [List.flatMap_assoc]
    exact List.flatMap_congr fun p _ => by rw [List.flatMap_cons]; rfl
  rw [e]
  refine detached_degree ?_ h q
  intro c hc
  obtain ⟨p, hp, hc⟩ := List.mem_flatMap.1 hc
  rcases List.mem_cons.1 hc with rfl | hc
  · exact (hP.valid p hp).border
  · exact (hP.valid p hp).holes c hc

/-- Operands the contours of which do not touch each other. -/
theorem Detached.fewTouchEach {P Q : List Polygon} (hP : ValidPolygons P) (hQ : ValidPolygons Q) (dP : Detached P)
    (dQ : Detached Q) : FewTouchEach P Q := by
  intro p hp e he v hv p' hp' u hu hvu hn
  right
  rw [List.flatMap_append, degree_append]
  obtain ⟨a1, a2⟩ := dP.degree hP v
  obtain ⟨b1, b2⟩ := dQ.degree hQ v
  rcases List.mem_append.1 hp' with h | h
  · rw [a2 u (List.mem_flatMap.2 ⟨p', h, hu⟩) hvu hn]
    omega
  · rw [b2 u (List.mem_flatMap.2 ⟨p', h, hu⟩) hvu hn]
    omega

/-- A polygon without holes. -/
theorem detached_single {p : Polygon} (h : p.holes = []) : Detached [p] := by
  unfold Detached
  simp [h]

end Clipping

import Verif.Lemmas.Shaped.Detaching
import Verif.Lemmas.Shaped.Expression
import Verif.Properties.Normal
import Verif.Properties.Detached

/-!
# Results of operations on polygons in normal form are in normal form
-/

namespace Clipping

theorem standard_nil : Standard [] := ⟨⟨by simp, by simp, List.Pairwise.nil, by simp⟩, by simp⟩

theorem Standard.of_perm {ps qs rs : List Polygon} (hp : Standard ps) (hq : Standard qs) (h : rs.Perm (ps ++ qs)) (s : SortedBorders rs) :
    Standard rs := by
  have cases : ∀ r ∈ rs, r ∈ ps ∨ r ∈ qs := fun r hr => List.mem_append.1 (h.mem_iff.1 hr)
  refine ⟨⟨fun r hr => ?_, fun r hr => ?_, s, fun r hr => ?_⟩, fun r hr => ?_⟩
  · exact (cases r hr).elim (hp.normal.border r) (hq.normal.border r)
  · exact (cases r hr).elim (hp.normal.hole r) (hq.normal.hole r)
  · exact (cases r hr).elim (hp.normal.holes r) (hq.normal.holes r)
  · exact (cases r hr).elim (hp.oriented r) (hq.oriented r)

theorem Standard.of_results {ps qs rs : List Polygon} (hp : Standard ps) (hq : Standard qs) (s : SortedBorders rs)
    (h1 : rs.Perm (ps ++ qs) ∨ NormalPolygons rs) (h2 : rs.Perm (ps ++ qs) ∨ ∀ p ∈ rs, p.Oriented) : Standard rs := by
  rcases h1 with h | h
  · exact hp.of_perm hq h s
  rcases h2 with g | g
  · exact hp.of_perm hq g s
  · exact ⟨h, g⟩

theorem Standard.of_difference {ps : List Polygon} {g g' : Geometry} (e : g'.polygons = ps) (hp : Standard ps)
    (h1 : g = g' ∨ NormalPolygons g.polygons) (h2 : g = g' ∨ ∀ p ∈ g.polygons, p.Oriented) : Standard g.polygons := by
  rcases h1 with rfl | h
  · rwa [e]
  rcases h2 with rfl | g
  · rwa [e]
  · exact ⟨h, g⟩

/-- Results on polygons in normal form are in normal form. -/
theorem Operation.call_standard {o : Orient} (ok : OrientOk o) (tb : TieBreak) (k : Operation) {ps qs : List Polygon}
    (hp : ValidPolygons ps) (hq : ValidPolygons qs) (sp : Standard ps) (sq : Standard qs) {g : Geometry} (h : k.call o tb ps qs = .ok g) :
    Standard g.polygons := by
  have trivial : k.call o tb ps qs = .ok .empty ∨ k.call o tb ps qs = .ok (.multipolygon ps) ∨ k.call o tb ps qs = .ok (.multipolygon qs) →
      Standard g.polygons := by
    rintro (e | e | e) <;> rw [h] at e <;> obtain rfl := Except.ok.inj e
    · exact standard_nil
    · exact sp
    · exact sq
  rcases ps with _ | ⟨p, _ | ⟨p', ps⟩⟩
  · rcases qs with _ | ⟨q, _ | ⟨q', qs⟩⟩
    all_goals cases k
    all_goals exact trivial (by first | exact Or.inl rfl | exact Or.inr (Or.inl rfl) | exact Or.inr (Or.inr rfl))
  · have vp := hp.single
    rcases qs with _ | ⟨q, _ | ⟨q', qs⟩⟩
    · cases k
      all_goals exact trivial (by first | exact Or.inl rfl | exact Or.inr (Or.inl rfl) | exact Or.inr (Or.inr rfl))
    · have vq := hq.single
      cases k
      · obtain ⟨g', e', -, -, w⟩ := intersectPolygons_outlines ok tb vp vq
        obtain ⟨g'', e'', n⟩ := intersectPolygons_normal ok tb vp vq
        have e : .ok g = Except.ok g' := h.symm.trans e'
        obtain rfl := Except.ok.inj e
        have e : .ok g = Except.ok g'' := h.symm.trans e''
        obtain rfl := Except.ok.inj e
        exact ⟨n, w⟩
      · obtain ⟨g', e', -, -, w⟩ := subtractPolygons_outlines ok tb vp vq
        obtain ⟨g'', e'', n⟩ := subtractPolygons_normal ok tb vp vq
        have e : .ok g = Except.ok g' := h.symm.trans e'
        obtain rfl := Except.ok.inj e
        have e : .ok g = Except.ok g'' := h.symm.trans e''
        obtain rfl := Except.ok.inj e
        exact Standard.of_difference (g' := (.polygon p)) rfl sp n w
      · obtain ⟨g', e', -, -, w⟩ := symmetricSubtractPolygons_outlines tb vp vq
        obtain ⟨g'', e'', n⟩ := symmetricSubtractPolygons_normal tb vp vq
        have e : .ok g = Except.ok g' := h.symm.trans e'
        obtain rfl := Except.ok.inj e
        have e : .ok g = Except.ok g'' := h.symm.trans e''
        obtain rfl := Except.ok.inj e
        exact Standard.of_results sp sq n.1 n.2 w
      · obtain ⟨g', e', -, -, w⟩ := unitePolygons_outlines tb vp vq
        obtain ⟨g'', e'', n⟩ := unitePolygons_normal tb vp vq
        have e : .ok g = Except.ok g' := h.symm.trans e'
        obtain rfl := Except.ok.inj e
        have e : .ok g = Except.ok g'' := h.symm.trans e''
        obtain rfl := Except.ok.inj e
        exact Standard.of_results sp sq n.1 n.2 w
    · have nq : q :: q' :: qs ≠ [] := by simp
      cases k
      · obtain ⟨g', e', -, -, w⟩ := intersectPolygonWithMultipolygon_outlines ok tb vp nq hq
        obtain ⟨g'', e'', n⟩ := intersectPolygonWithMultipolygon_normal ok tb vp nq hq
        have e : .ok g = Except.ok g' := h.symm.trans e'
        obtain rfl := Except.ok.inj e
        have e : .ok g = Except.ok g'' := h.symm.trans e''
        obtain rfl := Except.ok.inj e
        exact ⟨n, w⟩
      · obtain ⟨g', e', -, -, w⟩ := subtractMultipolygonFromPolygon_outlines ok tb vp nq hq
        obtain ⟨g'', e'', n⟩ := subtractMultipolygonFromPolygon_normal ok tb vp nq hq
        have e : .ok g = Except.ok g' := h.symm.trans e'
        obtain rfl := Except.ok.inj e
        have e : .ok g = Except.ok g'' := h.symm.trans e''
        obtain rfl := Except.ok.inj e
        exact Standard.of_difference (g' := (.polygon p)) rfl sp n w
      · obtain ⟨g', e', -, -, w⟩ := symmetricSubtractMultipolygonFromPolygon_outlines tb vp nq hq
        obtain ⟨g'', e'', n⟩ := symmetricSubtractMultipolygonFromPolygon_normal tb vp nq hq
        have e : .ok g = Except.ok g' := h.symm.trans e'
        obtain rfl := Except.ok.inj e
        have e : .ok g = Except.ok g'' := h.symm.trans e''
        obtain rfl := Except.ok.inj e
        exact Standard.of_results sp sq n.1 n.2 w
      · obtain ⟨g', e', -, -, w⟩ := unitePolygonWithMultipolygon_outlines tb vp nq hq
        obtain ⟨g'', e'', n⟩ := unitePolygonWithMultipolygon_normal tb vp nq hq
        have e : .ok g = Except.ok g' := h.symm.trans e'
        obtain rfl := Except.ok.inj e
        have e : .ok g = Except.ok g'' := h.symm.trans e''
        obtain rfl := Except.ok.inj e
        exact Standard.of_results sp sq n.1 n.2 w
  · have np : p :: p' :: ps ≠ [] := by simp
    rcases qs with _ | ⟨q, _ | ⟨q', qs⟩⟩
    · cases k
      all_goals exact trivial (by first | exact Or.inl rfl | exact Or.inr (Or.inl rfl) | exact Or.inr (Or.inr rfl))
    · have vq := hq.single
      cases k
      · obtain ⟨g', e', -, -, w⟩ := intersectPolygonWithMultipolygon_outlines ok tb vq np hp
        obtain ⟨g'', e'', n⟩ := intersectPolygonWithMultipolygon_normal ok tb vq np hp
        have e : .ok g = Except.ok g' := h.symm.trans e'
        obtain rfl := Except.ok.inj e
        have e : .ok g = Except.ok g'' := h.symm.trans e''
        obtain rfl := Except.ok.inj e
        exact ⟨n, w⟩
      · obtain ⟨g', e', -, -, w⟩ := subtractPolygonFromMultipolygon_outlines ok tb np hp vq
        obtain ⟨g'', e'', n⟩ := subtractPolygonFromMultipolygon_normal ok tb np hp vq
        have e : .ok g = Except.ok g' := h.symm.trans e'
        obtain rfl := Except.ok.inj e
        have e : .ok g = Except.ok g'' := h.symm.trans e''
        obtain rfl := Except.ok.inj e
        exact Standard.of_difference (g' := (.multipolygon (p :: p' :: ps))) rfl sp n w
      · obtain ⟨g', e', -, -, w⟩ := symmetricSubtractMultipolygonFromPolygon_outlines tb vq np hp
        obtain ⟨g'', e'', n⟩ := symmetricSubtractMultipolygonFromPolygon_normal tb vq np hp
        have e : .ok g = Except.ok g' := h.symm.trans e'
        obtain rfl := Except.ok.inj e
        have e : .ok g = Except.ok g'' := h.symm.trans e''
        obtain rfl := Except.ok.inj e
        exact Standard.of_results sq sp n.1 n.2 w
      · obtain ⟨g', e', -, -, w⟩ := unitePolygonWithMultipolygon_outlines tb vq np hp
        obtain ⟨g'', e'', n⟩ := unitePolygonWithMultipolygon_normal tb vq np hp
        have e : .ok g = Except.ok g' := h.symm.trans e'
        obtain rfl := Except.ok.inj e
        have e : .ok g = Except.ok g'' := h.symm.trans e''
        obtain rfl := Except.ok.inj e
        exact Standard.of_results sq sp n.1 n.2 w
    · have nq : q :: q' :: qs ≠ [] := by simp
      cases k
      · obtain ⟨g', e', -, -, w⟩ := intersectMultipolygons_outlines ok tb np hp nq hq
        obtain ⟨g'', e'', n⟩ := intersectMultipolygons_normal ok tb np hp nq hq
        have e : .ok g = Except.ok g' := h.symm.trans e'
        obtain rfl := Except.ok.inj e
        have e : .ok g = Except.ok g'' := h.symm.trans e''
        obtain rfl := Except.ok.inj e
        exact ⟨n, w⟩
      · obtain ⟨g', e', -, -, w⟩ := subtractMultipolygons_outlines ok tb np hp nq hq
        obtain ⟨g'', e'', n⟩ := subtractMultipolygons_normal ok tb np hp nq hq
        have e : .ok g = Except.ok g' := h.symm.trans e'
        obtain rfl := Except.ok.inj e
        have e : .ok g = Except.ok g'' := h.symm.trans e''
        obtain rfl := Except.ok.inj e
        exact Standard.of_difference (g' := (.multipolygon (p :: p' :: ps))) rfl sp n w
      · obtain ⟨g', e', -, -, w⟩ := symmetricSubtractMultipolygons_outlines tb np hp nq hq
        obtain ⟨g'', e'', n⟩ := symmetricSubtractMultipolygons_normal tb np hp nq hq
        have e : .ok g = Except.ok g' := h.symm.trans e'
        obtain rfl := Except.ok.inj e
        have e : .ok g = Except.ok g'' := h.symm.trans e''
        obtain rfl := Except.ok.inj e
        exact Standard.of_results sp sq n.1 n.2 w
      · obtain ⟨g', e', -, -, w⟩ := uniteMultipolygons_outlines tb np hp nq hq
        obtain ⟨g'', e'', n⟩ := uniteMultipolygons_normal tb np hp nq hq
        have e : .ok g = Except.ok g' := h.symm.trans e'
        obtain rfl := Except.ok.inj e
        have e : .ok g = Except.ok g'' := h.symm.trans e''
        obtain rfl := Except.ok.inj e
        exact Standard.of_results sp sq n.1 n.2 w

/-- Results on polygons the contours of which do not touch within one operand are valid. -/
theorem Operation.call_valid {o : Orient} (ok : OrientOk o) (tb : TieBreak) (k : Operation) {ps qs : List Polygon}
    (hp : ValidPolygons ps) (hq : ValidPolygons qs) (dp : Detached ps) (dq : Detached qs) {g : Geometry} (h : k.call o tb ps qs = .ok g) :
    ValidPolygons g.polygons := by
  have trivial : k.call o tb ps qs = .ok .empty ∨ k.call o tb ps qs = .ok (.multipolygon ps) ∨ k.call o tb ps qs = .ok (.multipolygon qs) →
      ValidPolygons g.polygons := by
    rintro (e | e | e) <;> rw [h] at e <;> obtain rfl := Except.ok.inj e
    · exact validPolygons_nil
    · exact hp
    · exact hq
  rcases ps with _ | ⟨p, _ | ⟨p', ps⟩⟩
  · rcases qs with _ | ⟨q, _ | ⟨q', qs⟩⟩
    all_goals cases k
    all_goals exact trivial (by first | exact Or.inl rfl | exact Or.inr (Or.inl rfl) | exact Or.inr (Or.inr rfl))
  · have vp := hp.single
    rcases qs with _ | ⟨q, _ | ⟨q', qs⟩⟩
    · cases k
      all_goals exact trivial (by first | exact Or.inl rfl | exact Or.inr (Or.inl rfl) | exact Or.inr (Or.inr rfl))
    · have vq := hq.single
      cases k
      · obtain ⟨g', e', -, v, -⟩ := intersectPolygons_detached ok tb vp vq dp dq
        have e : .ok g = Except.ok g' := h.symm.trans e'
        obtain rfl := Except.ok.inj e
        exact v
      · obtain ⟨g', e', -, v, -⟩ := subtractPolygons_detached ok tb vp vq dp dq
        have e : .ok g = Except.ok g' := h.symm.trans e'
        obtain rfl := Except.ok.inj e
        exact v
      · obtain ⟨g', e', -, v, -⟩ := symmetricSubtractPolygons_detached tb vp vq dp dq
        have e : .ok g = Except.ok g' := h.symm.trans e'
        obtain rfl := Except.ok.inj e
        exact v
      · obtain ⟨g', e', -, v, -⟩ := unitePolygons_detached tb vp vq dp dq
        have e : .ok g = Except.ok g' := h.symm.trans e'
        obtain rfl := Except.ok.inj e
        exact v
    · have nq : q :: q' :: qs ≠ [] := by simp
      cases k
      · obtain ⟨g', e', -, v, -⟩ := intersectPolygonWithMultipolygon_detached ok tb vp nq hq dp dq
        have e : .ok g = Except.ok g' := h.symm.trans e'
        obtain rfl := Except.ok.inj e
        exact v
      · obtain ⟨g', e', -, v, -⟩ := subtractMultipolygonFromPolygon_detached ok tb vp nq hq dp dq
        have e : .ok g = Except.ok g' := h.symm.trans e'
        obtain rfl := Except.ok.inj e
        exact v
      · obtain ⟨g', e', -, v, -⟩ := symmetricSubtractMultipolygonFromPolygon_detached tb vp nq hq dp dq
        have e : .ok g = Except.ok g' := h.symm.trans e'
        obtain rfl := Except.ok.inj e
        exact v
      · obtain ⟨g', e', -, v, -⟩ := unitePolygonWithMultipolygon_detached tb vp nq hq dp dq
        have e : .ok g = Except.ok g' := h.symm.trans e'
        obtain rfl := Except.ok.inj e
        exact v
  · have np : p :: p' :: ps ≠ [] := by simp
    rcases qs with _ | ⟨q, _ | ⟨q', qs⟩⟩
    · cases k
      all_goals exact trivial (by first | exact Or.inl rfl | exact Or.inr (Or.inl rfl) | exact Or.inr (Or.inr rfl))
    · have vq := hq.single
      cases k
      · obtain ⟨g', e', -, v, -⟩ := intersectPolygonWithMultipolygon_detached ok tb vq np hp dq dp
        have e : .ok g = Except.ok g' := h.symm.trans e'
        obtain rfl := Except.ok.inj e
        exact v
      · obtain ⟨g', e', -, v, -⟩ := subtractPolygonFromMultipolygon_detached ok tb np hp vq dp dq
        have e : .ok g = Except.ok g' := h.symm.trans e'
        obtain rfl := Except.ok.inj e
        exact v
      · obtain ⟨g', e', -, v, -⟩ := symmetricSubtractMultipolygonFromPolygon_detached tb vq np hp dq dp
        have e : .ok g = Except.ok g' := h.symm.trans e'
        obtain rfl := Except.ok.inj e
        exact v
      · obtain ⟨g', e', -, v, -⟩ := unitePolygonWithMultipolygon_detached tb vq np hp dq dp
        have e : .ok g = Except.ok g' := h.symm.trans e'
        obtain rfl := Except.ok.inj e
        exact v
    · have nq : q :: q' :: qs ≠ [] := by simp
      cases k
      · obtain ⟨g', e', -, v, -⟩ := intersectMultipolygons_detached ok tb np hp nq hq dp dq
        have e : .ok g = Except.ok g' := h.symm.trans e'
        obtain rfl := Except.ok.inj e
        exact v
      · obtain ⟨g', e', -, v, -⟩ := subtractMultipolygons_detached ok tb np hp nq hq dp dq
        have e : .ok g = Except.ok g' := h.symm.trans e'
        obtain rfl := Except.ok.inj e
        exact v
      · obtain ⟨g', e', -, v, -⟩ := symmetricSubtractMultipolygons_detached tb np hp nq hq dp dq
        have e : .ok g = Except.ok g' := h.symm.trans e'
        obtain rfl := Except.ok.inj e
        exact v
      · obtain ⟨g', e', -, v, -⟩ := uniteMultipolygons_detached tb np hp nq hq dp dq
        have e : .ok g = Except.ok g' := h.symm.trans e'
        obtain rfl := Except.ok.inj e
        exact v

theorem Expression.Yields.standard {o : Orient} (ok : OrientOk o) {tb : TieBreak} {v : ℕ → List Polygon} (sv : ∀ i, Standard (v i))
    {x : Expression} {ps : List Polygon} (h : x.Yields o tb v ps) : Standard ps := by
  induction h with
  | operand i => exact sv i
  | @apply k a b ps qs g ha hb hp hq e iha ihb => exact Operation.call_standard ok tb k hp hq iha ihb e

theorem NormalPolygons.cornered {ps : List Polygon} (h : NormalPolygons ps) : ∀ c ∈ contoursOf ps, c.Cornered := by
  intro c hc
  obtain ⟨p, hp, hc⟩ := List.mem_flatMap.1 hc
  rcases List.mem_cons.1 hc with rfl | hc
  · exact (h.border p hp).corners
  · exact (h.hole p hp c hc).corners

end Clipping

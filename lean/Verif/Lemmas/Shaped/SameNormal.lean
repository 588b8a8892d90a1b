import Verif.Lemmas.Shaped.Same
import Verif.Spec.Normal

/-!
# Polygons in normal form the contours of which do not touch are equal if they have the same points
-/

namespace Clipping

open Sweep

theorem SimpleContour.alone {c : Contour} (hc : SimpleContour c) {e : Segment} (he : e ∈ c.edges) {m : Point} (hm : m ∈ e.pts)
    (hn : ¬ e.IsEnd m) : ∀ e' ∈ c.edges, m ∈ e'.pts → e'.pts = e.pts := by
  intro e' he' hm'
  by_contra hne
  have : Std.Symm fun s t : Segment => ∀ q, q ∈ s.pts → q ∈ t.pts → s.IsEnd q ∧ t.IsEnd q :=
    ⟨fun _ _ g q h1 h2 => (g q h2 h1).symm⟩
  exact hn (List.Pairwise.forall hc.ends he he' (fun g => hne (by rw [g])) m hm hm').1

/-- An edge does not have the interior on both sides. -/
theorem SimpleContour.one_side {c d : Contour} (hc : SimpleContour c) (hd : SimpleContour d) (s : SameEdges c.edges d.edges) {a b : Point}
    (hab : a ≠ b) (he : ⟨a, b⟩ ∈ c.edges ∨ ⟨b, a⟩ ∈ c.edges) (hf : ⟨a, b⟩ ∈ d.edges ∨ ⟨b, a⟩ ∈ d.edges)
    (h1 : InteriorOnLeft c.edges ⟨a, b⟩) (h2 : InteriorOnLeft d.edges ⟨b, a⟩) : False := by
  have mm := middle'_mem a b
  set m := middle' a b with hm
  have na : m ≠ a := fun g => hab (middle'_eq g).symm
  have nb : m ≠ b := by
    intro e
    have e1 := congrArg Point.x e
    have e2 := congrArg Point.y e
    simp only [hm, middle'] at e1 e2
    refine hab ?_
    cases a; cases b
    simp only [Point.mk.injEq] at e1 e2 ⊢
    exact ⟨by linarith, by linarith⟩
  have key : ∀ {c : Contour}, SimpleContour c → (⟨a, b⟩ ∈ c.edges ∨ ⟨b, a⟩ ∈ c.edges) →
      ∀ e' ∈ c.edges, m ∈ e'.pts → e'.pts = (Segment.mk a b).pts := by
    rintro c hc (he | he) e' he' hm'
    · exact hc.alone he mm (fun g => g.elim na nb) e' he' hm'
    · rw [Segment.pts_swap a b]
      exact hc.alone he (by rwa [Segment.pts_swap] at mm) (fun g => g.elim nb na) e' he' hm'
  obtain ⟨δ, δ0, hδ⟩ := h1 m mm (fun g => g.elim na nb) (key hc he)
  obtain ⟨ε, ε0, hε⟩ := h2 m (by rwa [Segment.pts_swap] at mm) (fun g => g.elim nb na) (by
    have := key hd hf
    rwa [Segment.pts_swap] at this)
  obtain ⟨q, hq, hl⟩ := exists_left_near (e := ⟨a, b⟩) hab mm (lt_min δ0 ε0)
  have a' := ((hδ q ⟨hq.1.trans_le (min_le_left _ _), hq.2.trans_le (min_le_left _ _)⟩).1 hl).1
  refine ((hε q ⟨hq.1.trans_le (min_le_right _ _), hq.2.trans_le (min_le_right _ _)⟩).2 ?_).1 ((s.inside_iff q).1 a')
  show cross b a q < 0
  rw [cross_swap]
  simp only at hl
  linarith

theorem rotated_eq {α : Type} {l l' : List α} (nd : l.Nodup) (h : l ~r l') (hh : l.head? = l'.head?) : l = l' := by
  rcases eq_or_ne l [] with rfl | ne
  · exact (List.isRotated_nil_iff.1 h.symm).symm
  obtain ⟨n, rfl⟩ := h
  have pos := List.length_pos_iff.2 ne
  rw [← List.rotate_mod] at hh ⊢
  have lt := Nat.mod_lt n pos
  set k := n % l.length
  rw [List.head?_rotate lt, List.head?_eq_getElem?, List.getElem?_eq_getElem pos, List.getElem?_eq_getElem lt, Option.some.injEq] at hh
  have := (nd.getElem_inj_iff).1 hh
  rw [← this, List.rotate_zero]

theorem Contour.Normal.head_eq {c d : Contour} (hc : c.Normal) (hd : d.Normal) (h : ∀ v, v ∈ c.vertices ↔ v ∈ d.vertices) :
    c.vertices.head? = d.vertices.head? := by
  obtain ⟨v, vs, e, hv⟩ := hc.least
  obtain ⟨w, ws, e', hw⟩ := hd.least
  rw [e, e']
  rw [e, e'] at h
  simp only [List.head?_cons, Option.some.injEq]
  have h1 := (h v).1 (by simp)
  have h2 := (h w).2 (by simp)
  rcases List.mem_cons.1 h1 with g | g
  · exact g
  rcases List.mem_cons.1 h2 with g' | g'
  · exact g'.symm
  exact absurd (hw v g) (lt_asymm (hv w g'))

/-- Contours in normal form with the interior on the same side are equal if they are the same. -/
theorem SameContour.eq_of_normal {c d : Contour} (h : SameContour c d) (hc : SimpleContour c) (nc : c.Normal) (nd : d.Normal)
    (ori : ((∀ e ∈ c.edges, InteriorOnLeft c.edges e) ∧ ∀ e ∈ d.edges, InteriorOnLeft d.edges e) ∨
      ((∀ e ∈ c.edges, InteriorOnLeft c.edges ⟨e.stop, e.start⟩) ∧ ∀ e ∈ d.edges, InteriorOnLeft d.edges ⟨e.stop, e.start⟩)) : c = d := by
  have hd := h.simple hc
  have s := h.sameEdges
  rcases h with h | h
  · have := rotated_eq hc.nodup h (nc.head_eq nd fun v => h.mem_iff)
    cases c; cases d; simp only at this; rw [this]
  · exfalso
    have e0 := vtx_edge hc.nonempty 0
    have pe := hc.proper _ e0
    set e : Segment := ⟨vtx c 0, vtx c (0 + 1)⟩
    have r : reverseVertices c.vertices ~r d.vertices := (reverseVertices_rotated c.vertices).symm.trans h
    have f0 : (⟨e.stop, e.start⟩ : Segment) ∈ d.edges :=
      (edges_rotated r).mem_iff.1 ((edges_reverse_perm c.vertices).mem_iff.2 (List.mem_map.2 ⟨e, e0, rfl⟩))
    rcases ori with ⟨h1, h2⟩ | ⟨h1, h2⟩
    · exact hc.one_side hd s pe (Or.inl e0) (Or.inr f0) (h1 e e0) (h2 _ f0)
    · exact hc.one_side hd s (Ne.symm pe) (Or.inr e0) (Or.inl f0) (h1 e e0) (h2 _ f0)

theorem startsBefore_antisymm {c d : Contour} (hc : SimpleContour c) (hd : SimpleContour d) (h1 : c.StartsBefore d) (h2 : d.StartsBefore c) :
    vtx c 0 = vtx d 0 := by
  have head : ∀ {c : Contour}, SimpleContour c → vtx c 0 ∈ c.vertices.head? := by
    intro c hc
    have pos := List.length_pos_iff.2 hc.nonempty
    rw [vtx_of_lt pos, List.head?_eq_getElem?, List.getElem?_eq_getElem pos]
    rfl
  exact le_antisymm (h1 _ (head hc) _ (head hd)) (h2 _ (head hd) _ (head hc))

theorem eq_of_matched {α : Type} {R le : α → α → Prop} {l l' : List α} (h : Matched R l l') (hR : ∀ a ∈ l, ∀ b ∈ l', R a b → a = b)
    (s : l.Pairwise le) (s' : l'.Pairwise le) (anti : ∀ a ∈ l, ∀ b ∈ l, le a b → le b a → a = b) : l = l' := by
  obtain ⟨m, hm, pm⟩ := h
  have e : l = m := by
    have : ∀ b ∈ m, b ∈ l' := fun b hb => pm.mem_iff.1 hb
    clear pm s s' anti
    induction hm with
    | nil => rfl
    | @cons a b l m h _ ih =>
      rw [hR a (by simp) b (this b (by simp)) h, ih (fun a ha => hR a (by simp [ha])) fun b hb => this b (by simp [hb])]
  subst e
  exact pm.eq_of_pairwise (fun a b ha hb => anti a ha b (pm.mem_iff.2 hb)) s s'

/-- Polygons in normal form with the interior on the left are equal if they have the same points. -/
theorem Separate.eq_of_normal {ps qs : List Polygon} (H : Separate ps) (H' : Separate qs) (h : polysPts ps = polysPts qs)
    (np : NormalPolygons ps) (nq : NormalPolygons qs) (op : ∀ p ∈ ps, p.Oriented) (oq : ∀ q ∈ qs, q.Oriented) : ps = qs := by
  have start : ∀ {ps : List Polygon}, Separate ps → ∀ {c}, c ∈ contoursOf ps → vtx c 0 ∈ segsPts c.edges := fun H c hc =>
    ⟨_, vtx_edge (H.simple hc).nonempty 0, Segment.start_mem _⟩
  have same := H.same H' h
  refine eq_of_matched same ?_ np.sorted nq.sorted ?_
  · intro p hp q hq s
    have eb : p.border = q.border := s.border.eq_of_normal (H.simple (H.border_mem hp)) (np.border p hp) (nq.border q hq)
      (Or.inl ⟨(op p hp).1, (oq q hq).1⟩)
    have eh : p.holes = q.holes := by
      refine eq_of_matched s.holes ?_ (np.holes p hp).of_cons (nq.holes q hq).of_cons ?_
      · intro c hc d hd s
        exact s.eq_of_normal (H.simple (H.hole_mem hp hc)) (np.hole p hp c hc) (nq.hole q hq d hd) (Or.inr ⟨(op p hp).2 c hc, (oq q hq).2 d hd⟩)
      · intro c hc d hd h1 h2
        have mc := H.hole_mem hp hc
        have md := H.hole_mem hp hd
        exact H.loose.eq_of_common mc md (start H mc) (startsBefore_antisymm (H.simple mc) (H.simple md) h1 h2 ▸ start H md)
    cases p; cases q; simp only at eb eh; rw [eb, eh]
  · intro p hp q hq h1 h2
    have mc := H.border_mem hp
    have md := H.border_mem hq
    exact H.polygon_eq hp hq (c := p.border) (c' := q.border) (by simp) (by simp) (start H mc)
      (startsBefore_antisymm (H.simple mc) (H.simple md) h1 h2 ▸ start H md)

end Clipping

import Verif.Lemmas.Region.PlainContours
import Verif.Lemmas.Shaped.Filling
import Verif.Spec.Unique

/-!
# The hole belongs to the innermost border around it
-/

namespace Clipping

open Sweep

/-- A contour does not leave the inside of another one which it does not meet. -/
theorem SimpleContour.const_on {c d : Contour} (hc : SimpleContour c) (hd : SimpleContour d)
    (off : ∀ q ∈ segsPts d.edges, q ∉ segsPts c.edges) {q q' : Point} (hq : q ∈ segsPts d.edges) (hq' : q' ∈ segsPts d.edges) :
    Inside c.edges q ↔ Inside c.edges q' := by
  have along : ∀ i, ∀ r ∈ (Segment.mk (vtx d i) (vtx d (i + 1))).pts, (Inside c.edges (vtx d i) ↔ Inside c.edges r) := by
    intro i r hr
    refine hc.const fun x hx => off x ⟨_, vtx_edge hd.nonempty i, mk_sub (Segment.start_mem _) hr hx⟩
  have all : ∀ i, Inside c.edges (vtx d 0) ↔ Inside c.edges (vtx d i) := by
    intro i
    induction i with
    | zero => exact Iff.rfl
    | succ i ih => exact ih.trans (along i _ (Segment.stop_mem _))
  have each : ∀ r ∈ segsPts d.edges, (Inside c.edges (vtx d 0) ↔ Inside c.edges r) := by
    rintro r ⟨e, he, hr⟩
    obtain ⟨i, -, rfl⟩ := mem_edges.1 he
    exact (all i).trans (along i r hr)
  exact (each q hq).symm.trans (each q' hq')

/-- Of two contours not each one is around the other one. -/
theorem SimpleContour.not_mutual {c d : Contour} (hc : SimpleContour c) (hd : SimpleContour d)
    (h : segsPts d.edges ⊆ regionPts c.edges) {m : Point} (hm : m ∈ segsPts c.edges) (off : m ∉ segsPts d.edges)
    (hi : Inside d.edges m) : False := by
  obtain ⟨δ, δ0, hδ⟩ := inside_near hd.proper hd.even off
  obtain ⟨z, z1, -, z2, z3⟩ := (near_both hc.noOverlap hc.even hm (X := []) (by simp) δ0).2
  exact z3 (hc.filling hd.proper hd.even h z2 ((hδ z z1).2.2 hi))

/-- If a point is inside of two contours which do not meet, then one of them is inside of the other one. -/
theorem SimpleContour.laminar {b b' : Contour} (hb : SimpleContour b) (hb' : SimpleContour b')
    (off : ∀ q ∈ segsPts b.edges, q ∉ segsPts b'.edges) {x r : Point} (x1 : x ∉ segsPts b.edges)
    (i1 : Inside b.edges x) (i2 : Inside b'.edges x) (hr : r ∈ segsPts b.edges)
    (ho : ¬ Inside b'.edges r) {q : Point} (hq : q ∈ segsPts b'.edges) : Inside b.edges q := by
  have off' : ∀ q ∈ segsPts b'.edges, q ∉ segsPts b.edges := fun q h h' => off q h' h
  by_contra hn
  obtain ⟨δ, δ0, hδ⟩ := inside_near hb'.proper hb'.even (off r hr)
  obtain ⟨z, z1, -, z2, z3⟩ := (near_both hb.noOverlap hb.even hr (X := []) (by simp) δ0).1
  have z4 : ¬ Inside b'.edges z := fun h => ho ((hδ z z1).2.1 h)
  have l := (hb.linked_iff z2 x1).2 (iff_of_true z3 i1)
  have l' : Linked b'.edges z x := by
    clear i1 i2 x1
    induction l with
    | refl => exact Relation.ReflTransGen.refl
    | @tail a d h1 h2 ih =>
      refine ih.tail ?_
      intro t ht hL
      have ha : Inside b.edges a := (Linked.inside_iff hb.proper hb.even h1).1 z3
      have hat : Inside b.edges t := (Linked.inside_iff hb.proper hb.even (Free.sub h2 ht).linked).1 ha
      exact hn ((hb.const_on hb' off' hL hq).1 hat)
  exact z4 ((Linked.inside_iff hb'.proper hb'.even l').2 i2)

theorem near_all {α : Type} {l : List α} {m : Point} {P : α → Point → Prop} (h : ∀ a ∈ l, ∃ δ > 0, ∀ z, Near δ m z → P a z) :
    ∃ δ > 0, ∀ a ∈ l, ∀ z, Near δ m z → P a z := by
  induction l with
  | nil => exact ⟨1, one_pos, by simp⟩
  | cons a l ih =>
    obtain ⟨δ, δ0, hδ⟩ := ih fun b hb => h b (List.mem_cons_of_mem a hb)
    obtain ⟨ε, ε0, hε⟩ := h a (by simp)
    refine ⟨min δ ε, lt_min δ0 ε0, ?_⟩
    intro b hb z hz
    have z1 : Near δ m z := ⟨hz.1.trans_le (min_le_left _ _), hz.2.trans_le (min_le_left _ _)⟩
    have z2 : Near ε m z := ⟨hz.1.trans_le (min_le_right _ _), hz.2.trans_le (min_le_right _ _)⟩
    rcases List.mem_cons.1 hb with rfl | hb
    · exact hε z z2
    · exact hδ b hb z z1

theorem contoursOf_edges (ps : List Polygon) : (contoursOf ps).flatMap Contour.edges = ps.flatMap Polygon.edges := by
  unfold contoursOf
  rw [List.flatMap_assoc]
  congr 1

namespace Separate

variable {ps : List Polygon} (H : Separate ps)

include H

theorem simple {c : Contour} (hc : c ∈ contoursOf ps) : SimpleContour c := by
  obtain ⟨p, hp, hc⟩ := List.mem_flatMap.1 hc
  rcases List.mem_cons.1 hc with rfl | hc
  · exact (H.valid.valid p hp).border
  · exact (H.valid.valid p hp).holes c hc

theorem loose : Loose (contoursOf ps) := ⟨fun _ => H.simple, H.cornered, H.detached⟩

theorem polygon_eq {p p' : Polygon} (hp : p ∈ ps) (hp' : p' ∈ ps) {c c' : Contour} (hc : c ∈ p.border :: p.holes)
    (hc' : c' ∈ p'.border :: p'.holes) {q : Point} (h1 : q ∈ segsPts c.edges) (h2 : q ∈ segsPts c'.edges) : p = p' := by
  by_contra hne
  have := (List.pairwise_flatMap.1 H.detached).2
  have : Std.Symm fun p p' : Polygon => ∀ c ∈ p.border :: p.holes, ∀ c' ∈ p'.border :: p'.holes, ∀ q ∈ segsPts c.edges, q ∉ segsPts c'.edges :=
    ⟨fun _ _ g c hc c' hc' q h1 h2 => g c' hc' c hc q h2 h1⟩
  exact (List.pairwise_flatMap.1 H.detached).2.forall hp hp' hne c hc c' hc' q h1 h2

theorem apart {p p' : Polygon} (hp : p ∈ ps) (hp' : p' ∈ ps) (hne : p ≠ p') : Apart p.edges p'.edges := by
  have : Std.Symm fun p p' : Polygon => Apart p.edges p'.edges ∧ Apart p'.edges p.edges := ⟨fun _ _ g => g.symm⟩
  exact (H.valid.apart.forall hp hp' hne).1

theorem apart_holes {p : Polygon} (hp : p ∈ ps) {h h' : Contour} (hh : h ∈ p.holes) (hh' : h' ∈ p.holes) (hne : h ≠ h') :
    Apart h.edges h'.edges := by
  have : Std.Symm fun p p' : Contour => Apart p.edges p'.edges ∧ Apart p'.edges p.edges := ⟨fun _ _ g => g.symm⟩
  exact ((H.valid.valid p hp).apart.forall hh hh' hne).1

theorem border_mem {p : Polygon} (hp : p ∈ ps) : p.border ∈ contoursOf ps := List.mem_flatMap.2 ⟨p, hp, by simp⟩

theorem hole_mem {p : Polygon} (hp : p ∈ ps) {h : Contour} (hh : h ∈ p.holes) : h ∈ contoursOf ps :=
  List.mem_flatMap.2 ⟨p, hp, by simp [hh]⟩

theorem nodup : (contoursOf ps).Nodup := by
  refine List.Pairwise.imp_of_mem ?_ H.detached
  rintro c d hc - h rfl
  have := vtx_edge (H.simple hc).nonempty 0
  exact h _ ⟨_, this, Segment.start_mem _⟩ ⟨_, this, Segment.start_mem _⟩

theorem holes_nodup {p : Polygon} (hp : p ∈ ps) : p.holes.Nodup :=
  ((List.pairwise_flatMap.1 H.nodup).1 p hp).of_cons

theorem border_off {p : Polygon} (hp : p ∈ ps) {h : Contour} (hh : h ∈ p.holes) {q : Point} (hq : q ∈ segsPts p.border.edges) :
    q ∉ segsPts h.edges :=
  (List.pairwise_cons.1 ((List.pairwise_flatMap.1 H.detached).1 p hp)).1 h hh q hq

theorem hole_inside {p : Polygon} (hp : p ∈ ps) {h : Contour} (hh : h ∈ p.holes) {q : Point} (hq : q ∈ segsPts h.edges) :
    Inside p.border.edges q := by
  rcases (H.valid.valid p hp).inside h hh (Or.inl hq) with g | g
  · exact absurd hq (H.border_off hp hh g)
  · exact g

theorem off_polygon {p : Polygon} (hp : p ∈ ps) {p' : Polygon} (hp' : p' ∈ ps) (hne : p ≠ p') {c : Contour}
    (hc : c ∈ p.border :: p.holes) {m : Point} (hm : m ∈ segsPts c.edges) : m ∉ segsPts p'.edges := by
  intro h
  have e : p'.edges = (p'.border :: p'.holes).flatMap Contour.edges := rfl
  rw [e, segsPts_flatMap] at h
  obtain ⟨c', hc', h⟩ := h
  exact hne (H.polygon_eq hp hp' hc hc' hm h)

theorem not_inside {p : Polygon} (hp : p ∈ ps) {p' : Polygon} (hp' : p' ∈ ps) (hne : p ≠ p') {c : Contour}
    (hc : c ∈ p.border :: p.holes) {m : Point} (hm : m ∈ segsPts c.edges) : ¬ Inside p'.edges m := by
  refine H.apart hp hp' hne m (Or.inl ?_) (H.off_polygon hp hp' hne hc hm)
  have e : p.edges = (p.border :: p.holes).flatMap Contour.edges := rfl
  rw [e, segsPts_flatMap]
  exact ⟨c, hc, hm⟩

/-- Near a border the polygons are inside of it. -/
theorem border_near {p : Polygon} (hp : p ∈ ps) {m : Point} (hm : m ∈ segsPts p.border.edges) :
    ∃ δ > 0, ∀ z, Near δ m z → z ∉ segsPts (ps.flatMap Polygon.edges) → Inside p.border.edges z →
      Inside (ps.flatMap Polygon.edges) z := by
  have V := H.valid.valid p hp
  obtain ⟨δ, δ0, hδ⟩ := near_all (l := p.holes) (m := m) (P := fun h z => ¬ Inside h.edges z) fun h hh => by
    have o := H.border_off hp hh hm
    obtain ⟨δ, δ0, hδ⟩ := inside_near (V.holes h hh).proper (V.holes h hh).even o
    exact ⟨δ, δ0, fun z hz hi => V.outside h hh m hm o ((hδ z hz).2.1 hi)⟩
  refine ⟨δ, δ0, fun z hz off hi => H.valid.inside_of hp off ?_⟩
  unfold Polygon.edges
  rw [inside_append]
  exact iff_of_true hi (inside_flatMap_not fun h hh => hδ h hh z hz)

/-- Near a hole the polygons are not inside of it. -/
theorem hole_near {p : Polygon} (hp : p ∈ ps) {h : Contour} (hh : h ∈ p.holes) {m : Point} (hm : m ∈ segsPts h.edges) :
    ∃ δ > 0, ∀ z, Near δ m z → Inside h.edges z → ¬ Inside (ps.flatMap Polygon.edges) z := by
  have V := H.valid.valid p hp
  obtain ⟨δ₁, δ₁0, hδ₁⟩ := near_all (l := ps) (m := m) (P := fun p' z => p' ≠ p → ¬ Inside p'.edges z) fun p' hp' => by
    by_cases hne : p' = p
    · exact ⟨1, one_pos, fun _ _ g => absurd hne g⟩
    · have o := H.off_polygon hp hp' (Ne.symm hne) (c := h) (by simp [hh]) hm
      have n := H.not_inside hp hp' (Ne.symm hne) (c := h) (by simp [hh]) hm
      obtain ⟨δ, δ0, hδ⟩ := inside_near (H.valid.valid p' hp').noOverlap.1 (H.valid.valid p' hp').even o
      exact ⟨δ, δ0, fun z hz _ hi => n ((hδ z hz).2.1 hi)⟩
  obtain ⟨δ₂, δ₂0, hδ₂⟩ := near_all (l := p.holes) (m := m) (P := fun h' z => h' ≠ h → ¬ Inside h'.edges z) fun h' hh' => by
    by_cases hne : h' = h
    · exact ⟨1, one_pos, fun _ _ g => absurd hne g⟩
    · have o : m ∉ segsPts h'.edges := fun g =>
        hne (H.loose.eq_of_common (H.hole_mem hp hh') (H.hole_mem hp hh) g hm)
      have n := H.apart_holes hp hh hh' (Ne.symm hne) m (Or.inl hm) o
      obtain ⟨δ, δ0, hδ⟩ := inside_near (V.holes h' hh').proper (V.holes h' hh').even o
      exact ⟨δ, δ0, fun z hz _ hi => n ((hδ z hz).2.1 hi)⟩
  obtain ⟨δ₃, δ₃0, hδ₃⟩ := inside_near V.border.proper V.border.even (q := m) fun g => H.border_off hp hh g hm
  refine ⟨min δ₁ (min δ₂ δ₃), lt_min δ₁0 (lt_min δ₂0 δ₃0), fun z hz hi hE => ?_⟩
  have z1 : Near δ₁ m z := ⟨hz.1.trans_le (min_le_left _ _), hz.2.trans_le (min_le_left _ _)⟩
  have z' : Near (min δ₂ δ₃) m z := ⟨hz.1.trans_le (min_le_right _ _), hz.2.trans_le (min_le_right _ _)⟩
  have z2 : Near δ₂ m z := ⟨z'.1.trans_le (min_le_left _ _), z'.2.trans_le (min_le_left _ _)⟩
  have z3 : Near δ₃ m z := ⟨z'.1.trans_le (min_le_right _ _), z'.2.trans_le (min_le_right _ _)⟩
  obtain ⟨p', hp', g⟩ := exists_inside_of hE
  by_cases hne : p' = p
  · subst hne
    unfold Polygon.edges at g
    rw [inside_append] at g
    refine g.1 ((hδ₃ z z3).2.2 (H.hole_inside hp hh hm)) ?_
    refine (inside_flatMap_unique (H.holes_nodup hp) ?_).2 ⟨h, hh, hi⟩
    have one : ∀ i ∈ p'.holes, Inside i.edges z → i = h := fun i hi' hz' => by
      by_contra hne
      exact hδ₂ i hi' z z2 hne hz'
    intro i hi' j hj' a b
    rw [one i hi' a, one j hj' b]
  · exact hδ₁ p' hp' z z1 hne g

/-- Of the borders around a hole the one of its polygon is the innermost one. -/
theorem owner {p p' : Polygon} (hp : p ∈ ps) (hp' : p' ∈ ps) {h : Contour} (hh : h ∈ p.holes) {m : Point}
    (hm : m ∈ segsPts h.edges) (hi : Inside p'.border.edges m) :
    p' = p ∨ ∀ q ∈ segsPts p.border.edges, Inside p'.border.edges q := by
  have V := H.valid.valid p hp
  have V' := H.valid.valid p' hp'
  by_cases hne : p' = p
  · exact Or.inl hne
  refine Or.inr ?_
  by_contra hr
  push Not at hr
  obtain ⟨r, hr, hr'⟩ := hr
  have sur : ∀ q ∈ segsPts p'.border.edges, Inside p.border.edges q := fun q hq =>
    V.border.laminar V'.border (fun q h1 h2 => hne (H.polygon_eq hp' hp (c := p'.border) (c' := p.border) (by simp) (by simp) h2 h1))
      (fun g => H.border_off hp hh g hm) (H.hole_inside hp hh hm) hi hr hr' hq
  have q0 : vtx p'.border 0 ∈ segsPts p'.border.edges := ⟨_, vtx_edge V'.border.nonempty 0, Segment.start_mem _⟩
  have n := H.not_inside hp' hp hne (c := p'.border) (by simp) q0
  unfold Polygon.edges at n
  rw [inside_append] at n
  have : Inside (p.holes.flatMap Contour.edges) (vtx p'.border 0) := by
    by_contra g
    exact n (iff_of_true (sur _ q0) g)
  have : ∃ h' ∈ p.holes, Inside h'.edges (vtx p'.border 0) := by
    by_contra g
    push Not at g
    exact inside_flatMap_not g this
  obtain ⟨h', hh', g⟩ := this
  have off : ∀ c ∈ p.holes, ∀ q ∈ segsPts p'.border.edges, q ∉ segsPts c.edges := fun c hc q h1 h2 =>
    hne (H.polygon_eq hp' hp (c := p'.border) (c' := c) (by simp) (by simp [hc]) h1 h2)
  have all : segsPts p'.border.edges ⊆ regionPts h'.edges := fun q hq =>
    Or.inr (((V.holes h' hh').const_on V'.border (off h' hh') q0 hq).1 g)
  by_cases e : h' = h
  · subst e
    exact (V.holes h' hh').not_mutual V'.border all hm (fun g => off h' hh' m g hm) hi
  · have o : m ∉ segsPts h'.edges := fun g => e (H.loose.eq_of_common (H.hole_mem hp hh') (H.hole_mem hp hh) g hm)
    exact H.apart_holes hp hh hh' (Ne.symm e) m (Or.inl hm) o ((V.holes h' hh').filling V'.border.proper V'.border.even all o hi)

end Separate

end Clipping

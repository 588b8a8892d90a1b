import Verif.Lemmas.Arrangement
import Verif.Lemmas.Shaped.Corners
import Verif.Spec.Contacts

/-!
# Segments which run from vertex to vertex of an arrangement are not more than the contacts
-/

namespace Clipping

theorem contacts_le (l : List Segment) : contacts l ≤ l.length ^ 2 := by
  classical
  unfold contacts
  refine (Finset.card_filter_le _ _).trans ?_
  rw [Finset.card_product, sq]
  exact Nat.mul_le_mul (List.toFinset_card_le l) (List.toFinset_card_le l)

theorem contacts_mono {l l' : List Segment} (h : l ⊆ l') : contacts l ≤ contacts l' := by
  classical
  unfold contacts
  have h' : l.toFinset ⊆ l'.toFinset := fun x hx => List.mem_toFinset.2 (h (List.mem_toFinset.1 hx))
  exact Finset.card_le_card (Finset.filter_subset_filter _ (Finset.product_subset_product h' h'))

/-- Every segment meets itself. -/
theorem length_le_contacts {l : List Segment} (h : l.Nodup) : l.length ≤ contacts l := by
  classical
  unfold contacts
  rw [← List.toFinset_card_of_nodup h]
  refine Finset.card_le_card_of_injOn (fun s => (s, s)) (fun s hs => ?_) (fun s _ t _ e => (Prod.mk.inj e).1)
  simp only [Finset.coe_filter, Finset.mem_product, Set.mem_ofPred_eq]
  exact ⟨⟨hs, hs⟩, s.start, s.start_mem, s.start_mem⟩

/-- The segment starts along `s` at its lower end. -/
structure StartsAlong (c s : Segment) : Prop where
  mem : c.lo ∈ s.pts
  next : ∃ q ∈ s.pts, c.lo < q ∧ cross c.lo c.hi q = 0

theorem exists_startsAlong {l : List Segment} (pr : ∀ s ∈ l, s.Proper) {c : Segment} (hc : c.Proper) (h : c.pts ⊆ segsPts l) :
    ∃ s ∈ l, StartsAlong c s := by
  have hlt := Segment.lo_lt_hi hc
  obtain ⟨s, hs, hv, k, hk, hq⟩ := starts_along pr (v := c.lo) (u := c.hi) hlt.ne' (by rw [show (Segment.mk c.lo c.hi) = c.norm from rfl, Segment.pts_norm]; exact h)
  refine ⟨s, hs, hv, _, hq, ?_, ?_⟩
  · rcases hlt with h | ⟨h1, h2⟩
    · exact Or.inl (by dsimp only; nlinarith)
    · exact Or.inr ⟨by dsimp only; rw [h1]; ring, by dsimp only; nlinarith⟩
  · unfold cross; dsimp only; ring

theorem StartsAlong.cross {c s : Segment} (hs : s.Proper) (hc : c.Proper) (h : StartsAlong c s) (q : Point) :
    cross c.lo c.hi q = 0 ↔ cross s.lo s.hi q = 0 := by
  obtain ⟨r, hr, hlt, hx⟩ := h.next
  have e1 := line_eq (Segment.lo_lt_hi hs).ne hlt.ne ((Segment.mem_iff hs).1 h.mem).1 ((Segment.mem_iff hs).1 hr).1 q
  have e2 := line_eq (Segment.lo_lt_hi hc).ne hlt.ne (by unfold Clipping.cross; ring) hx q
  exact e2.symm.trans e1

theorem StartsAlong.lt {c s : Segment} (h : StartsAlong c s) : c.lo < s.hi := by
  obtain ⟨r, hr, hlt, -⟩ := h.next
  exact lt_of_lt_of_le hlt (Segment.le_hi_of_mem hr)

/-- Segments which start at the same point along the same segment overlap. -/
theorem StartsAlong.overlapping {c c' s : Segment} (hs : s.Proper) (hc : c.Proper) (hc' : c'.Proper) (h : StartsAlong c s)
    (h' : StartsAlong c' s) (e : c.lo = c'.lo) : Overlapping c c' := by
  have l1 := Segment.lo_lt_hi hc
  have l2 := Segment.lo_lt_hi hc'
  have key : ∀ q, Clipping.cross c.lo c.hi q = 0 ↔ Clipping.cross c'.lo c'.hi q = 0 := fun q => (h.cross hs hc q).trans (h'.cross hs hc' q).symm
  refine ⟨c.lo, min c.hi c'.hi, ?_, ?_, ?_, ?_, ?_⟩
  · exact (lt_min l1 (e ▸ l2)).ne
  · exact (Segment.mem_iff hc).2 ⟨by unfold Clipping.cross; ring, le_rfl, l1.le⟩
  · refine (Segment.mem_iff hc).2 ⟨?_, (lt_min l1 (e ▸ l2)).le, min_le_left _ _⟩
    rcases min_choice c.hi c'.hi with g | g <;> rw [g]
    · unfold Clipping.cross; ring
    · exact (key _).2 (by unfold Clipping.cross; ring)
  · rw [e]
    exact (Segment.mem_iff hc').2 ⟨by unfold Clipping.cross; ring, le_rfl, l2.le⟩
  · refine (Segment.mem_iff hc').2 ⟨?_, e ▸ (lt_min l1 (e ▸ l2)).le, min_le_right _ _⟩
    rcases min_choice c.hi c'.hi with g | g <;> rw [g]
    · exact (key _).1 (by unfold Clipping.cross; ring)
    · unfold Clipping.cross; ring

/-- the pair of segments which a segment of the result comes from: its lower end is the lower end of the first one, which is the second one, or
it is the only common point of both, or the upper end of the second one -/
structure ComesFrom (l : List Segment) (c s t : Segment) : Prop where
  first : s ∈ l
  second : t ∈ l
  along : StartsAlong c s
  meet : (s = t ∧ c.lo = s.lo) ∨ (s.pts ∩ t.pts = {c.lo}) ∨ (Overlapping s t ∧ c.lo = t.hi)

theorem inter_eq_of_not_overlapping {s t : Segment} {p : Point} (h1 : p ∈ s.pts) (h2 : p ∈ t.pts) (h : ¬ Overlapping s t) :
    s.pts ∩ t.pts = {p} := by
  ext q
  constructor
  · rintro ⟨g1, g2⟩
    by_contra hne
    exact h ⟨p, q, fun e => hne e.symm, h1, g1, h2, g2⟩
  · rintro rfl
    exact ⟨h1, h2⟩

theorem overlapping_line {s t : Segment} (hs : s.Proper) (ht : t.Proper) (h : Overlapping s t) (q : Point) :
    cross s.lo s.hi q = 0 ↔ cross t.lo t.hi q = 0 := by
  obtain ⟨a, b, hne, a1, b1, a2, b2⟩ := h
  have e1 := line_eq (Segment.lo_lt_hi hs).ne hne ((Segment.mem_iff hs).1 a1).1 ((Segment.mem_iff hs).1 b1).1 q
  have e2 := line_eq (Segment.lo_lt_hi ht).ne hne ((Segment.mem_iff ht).1 a2).1 ((Segment.mem_iff ht).1 b2).1 q
  exact e1.symm.trans e2

/-- Two segments on a line which go on above a common point overlap. -/
theorem overlapping_above {s t : Segment} (hs : s.Proper) (ht : t.Proper) {p : Point} (h1 : p ∈ s.pts) (h2 : p ∈ t.pts) (l1 : p < s.hi)
    (l2 : p < t.hi) (h : ∀ q, cross s.lo s.hi q = 0 ↔ cross t.lo t.hi q = 0) : Overlapping s t := by
  refine ⟨p, min s.hi t.hi, (lt_min l1 l2).ne, h1, ?_, h2, ?_⟩
  · refine (Segment.mem_iff hs).2 ⟨?_, ((Segment.mem_iff hs).1 h1).2.1.trans (lt_min l1 l2).le, min_le_left _ _⟩
    rcases min_choice s.hi t.hi with g | g <;> rw [g]
    · unfold cross; ring
    · exact (h _).2 (by unfold cross; ring)
  · refine (Segment.mem_iff ht).2 ⟨?_, ((Segment.mem_iff ht).1 h2).2.1.trans (lt_min l1 l2).le, min_le_right _ _⟩
    rcases min_choice s.hi t.hi with g | g <;> rw [g]
    · exact (h _).1 (by unfold cross; ring)
    · unfold cross; ring

theorem exists_comesFrom {l : List Segment} (pr : ∀ s ∈ l, s.Proper) {c : Segment} (hc : c.Proper) (h : c.pts ⊆ segsPts l)
    (hv : Vertex l c.lo) : ∃ s t, ComesFrom l c s t := by
  by_cases h0 : ∃ s ∈ l, StartsAlong c s ∧ c.lo = s.lo
  · obtain ⟨s, hs, ha, e⟩ := h0
    exact ⟨s, s, hs, hs, ha, Or.inl ⟨rfl, e⟩⟩
  push Not at h0
  obtain ⟨s, hs, ha⟩ := exists_startsAlong pr hc h
  have ps := pr s hs
  /- segments which go on above the lower end along `s` -/
  have along : ∀ t ∈ l, c.lo ∈ t.pts → c.lo < t.hi → Overlapping s t → StartsAlong c t := fun t ht hm hlt ho =>
    ⟨hm, t.hi, t.hi_mem, hlt, (ha.cross ps hc _).2 ((overlapping_line ps (pr t ht) ho _).2 (by unfold cross; ring))⟩
  rcases hv with ⟨t, ht, he⟩ | ⟨u, hu, v, hv, huv⟩
  · have hm : c.lo ∈ t.pts := by rcases he with e | e <;> rw [e]; exacts [t.start_mem, t.stop_mem]
    refine ⟨s, t, hs, ht, ha, Or.inr ?_⟩
    by_cases ho : Overlapping s t
    · refine Or.inr ⟨ho, ?_⟩
      have : c.lo = t.lo ∨ c.lo = t.hi := by
        rcases Segment.lo_hi_cases t with ⟨a, b, -⟩ | ⟨a, b, -⟩ <;> rw [a, b]
        · exact he
        · exact he.symm
      rcases this with e | e
      · have hlt := Segment.lo_lt_hi (pr t ht)
        exact absurd e (h0 t ht (along t ht hm (e ▸ hlt) ho))
      · exact e
    · exact Or.inl (inter_eq_of_not_overlapping ha.mem hm ho)
  · have mu : c.lo ∈ u.pts := (huv.symm ▸ rfl : c.lo ∈ u.pts ∩ v.pts).1
    have mv : c.lo ∈ v.pts := (huv.symm ▸ rfl : c.lo ∈ u.pts ∩ v.pts).2
    by_cases hou : Overlapping s u
    · by_cases hov : Overlapping s v
      · by_cases lu : c.lo < u.hi
        · by_cases lv : c.lo < v.hi
          · exfalso
            obtain ⟨a, b, hne, a1, b1, a2, b2⟩ := overlapping_above (pr u hu) (pr v hv) mu mv lu lv fun q =>
              (overlapping_line ps (pr u hu) hou q).symm.trans (overlapping_line ps (pr v hv) hov q)
            have e1 : a ∈ u.pts ∩ v.pts := ⟨a1, a2⟩
            have e2 : b ∈ u.pts ∩ v.pts := ⟨b1, b2⟩
            rw [huv] at e1 e2
            exact hne (e1.trans e2.symm)
          · exact ⟨s, v, hs, hv, ha, Or.inr (Or.inr ⟨hov, le_antisymm (Segment.le_hi_of_mem mv) (not_lt.1 lv)⟩)⟩
        · exact ⟨s, u, hs, hu, ha, Or.inr (Or.inr ⟨hou, le_antisymm (Segment.le_hi_of_mem mu) (not_lt.1 lu)⟩)⟩
      · exact ⟨s, v, hs, hv, ha, Or.inr (Or.inl (inter_eq_of_not_overlapping ha.mem mv hov))⟩
    · exact ⟨s, u, hs, hu, ha, Or.inr (Or.inl (inter_eq_of_not_overlapping ha.mem mu hou))⟩

/-- The pair determines the lower end. -/
theorem ComesFrom.lo_eq {l : List Segment} (pr : ∀ s ∈ l, s.Proper) {c c' s t : Segment} (h : ComesFrom l c s t) (h' : ComesFrom l c' s t) :
    c.lo = c'.lo := by
  have self : ∀ {c : Segment}, ComesFrom l c s s → c.lo = s.lo := by
    intro c h
    rcases h.meet with ⟨-, e⟩ | e | ⟨-, e⟩
    · exact e
    · exfalso
      have e1 : s.start ∈ s.pts ∩ s.pts := ⟨s.start_mem, s.start_mem⟩
      have e2 : s.stop ∈ s.pts ∩ s.pts := ⟨s.stop_mem, s.stop_mem⟩
      rw [e] at e1 e2
      exact pr s h.first (e1.trans e2.symm)
    · exact absurd h.along.lt (by rw [e]; exact lt_irrefl _)
  by_cases est : s = t
  · subst est
    rw [self h, self h']
  rcases h.meet with ⟨e, -⟩ | e | ⟨o, e⟩
  · exact absurd e est
  · rcases h'.meet with ⟨e', -⟩ | e' | ⟨o', -⟩
    · exact absurd e' est
    · exact Set.singleton_injective (e.symm.trans e')
    · exfalso
      obtain ⟨a, b, hne, a1, b1, a2, b2⟩ := o'
      have e1 : a ∈ s.pts ∩ t.pts := ⟨a1, a2⟩
      have e2 : b ∈ s.pts ∩ t.pts := ⟨b1, b2⟩
      rw [e] at e1 e2
      exact hne (e1.trans e2.symm)
  · rcases h'.meet with ⟨e', -⟩ | e' | ⟨-, e'⟩
    · exact absurd e' est
    · exfalso
      obtain ⟨a, b, hne, a1, b1, a2, b2⟩ := o
      have e1 : a ∈ s.pts ∩ t.pts := ⟨a1, a2⟩
      have e2 : b ∈ s.pts ∩ t.pts := ⟨b1, b2⟩
      rw [e'] at e1 e2
      exact hne (e1.trans e2.symm)
    · rw [e, e']

theorem ComesFrom.nonempty {l : List Segment} {c s t : Segment} (h : ComesFrom l c s t) : (s.pts ∩ t.pts).Nonempty := by
  rcases h.meet with ⟨rfl, -⟩ | e | ⟨⟨a, b, -, a1, -, a2, -⟩, -⟩
  · exact ⟨s.start, s.start_mem, s.start_mem⟩
  · exact ⟨c.lo, e ▸ rfl⟩
  · exact ⟨a, a1, a2⟩

/-- Segments which do not overlap, run along other segments and start at vertices of their arrangement are not more than the contacts of the
others. -/
theorem length_le_of_vertices {l C : List Segment} (pr : ∀ s ∈ l, s.Proper) (hC : NoOverlap C) (hw : ∀ c ∈ C, c.pts ⊆ segsPts l)
    (hv : ∀ c ∈ C, Vertex l c.lo) : C.length ≤ contacts l := by
  classical
  have ex : ∀ c, ∃ p : Segment × Segment, c ∈ C → ComesFrom l c p.1 p.2 := by
    intro c
    by_cases hc : c ∈ C
    · obtain ⟨s, t, h⟩ := exists_comesFrom pr (hC.1 c hc) (hw c hc) (hv c hc)
      exact ⟨(s, t), fun _ => h⟩
    · exact ⟨(c, c), fun h => absurd h hc⟩
  choose f hf using ex
  have self : ∀ c ∈ C, Overlapping c c := fun c hc =>
    ⟨c.start, c.stop, hC.1 c hc, c.start_mem, c.stop_mem, c.start_mem, c.stop_mem⟩
  have nodup : C.Nodup := hC.2.imp_of_mem fun {c c'} hc _ h e => h (e ▸ self c hc)
  unfold contacts
  rw [← List.toFinset_card_of_nodup nodup]
  refine Finset.card_le_card_of_injOn f (fun c hc => ?_) (fun c hc c' hc' e => ?_)
  · have hc : c ∈ C := by simpa using hc
    simp only [Finset.coe_filter, Finset.mem_product, List.mem_toFinset, Set.mem_ofPred_eq]
    exact ⟨⟨(hf c hc).first, (hf c hc).second⟩, (hf c hc).nonempty⟩
  · have hc : c ∈ C := by simpa using hc
    have hc' : c' ∈ C := by simpa using hc'
    have h1 := hf c hc
    have h2 := hf c' hc'
    rw [← e] at h2
    by_contra hne
    have ho := h1.along.overlapping (pr _ h1.first) (hC.1 c hc) (hC.1 c' hc') h2.along (h1.lo_eq pr h2)
    have key : ∀ {x y}, Overlapping x y → Overlapping y x := fun ⟨a, b, n, a1, b1, a2, b2⟩ => ⟨a, b, n, a2, b2, a1, b1⟩
    have hsym : Std.Symm fun x y : Segment => ¬ Overlapping x y := ⟨fun x y h o => h (key o)⟩
    exact hC.2.forall hc hc' hne ho

end Clipping

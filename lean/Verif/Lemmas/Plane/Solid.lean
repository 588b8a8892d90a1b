import Verif.Lemmas.Shaped.Valid
import Verif.Lemmas.Shaped.Result
import Verif.Lemmas.Region.Closed

/-!
# Faces without holes
-/

namespace Clipping

open Sweep

/-- mirror image of a direction -/
def mirror (d : Point) : Point := ⟨d.x, - d.y⟩

theorem det_mirror (a b : Point) : det (mirror a) (mirror b) = - det a b := by unfold det mirror; ring

theorem mirror_ne_zero {a : Point} (h : a.x ≠ 0 ∨ a.y ≠ 0) : (mirror a).x ≠ 0 ∨ (mirror a).y ≠ 0 := by
  rcases h with h | h
  · exact Or.inl h
  · exact Or.inr (neg_ne_zero.2 h)

theorem sameDir_mirror {a b : Point} (h : SameDir (mirror a) (mirror b)) : SameDir a b := by
  obtain ⟨c, c0, hx, hy⟩ := h
  refine ⟨c, c0, hx, ?_⟩
  simp only [mirror] at hy
  linarith

theorem inSector_of_mirror {f r x : Point} (hf : f.x ≠ 0 ∨ f.y ≠ 0) (hr : r.x ≠ 0 ∨ r.y ≠ 0) (hd : ¬ SameDir f r)
    (h : InSector (mirror r) (mirror f) (mirror x)) : InSector f r x := by
  unfold InSector at h ⊢
  simp only [det_mirror] at h
  have e1 := det_swap f r
  have e2 := det_swap f x
  have e3 := det_swap x r
  rcases h with ⟨h1, h2, h3⟩ | ⟨h1, h2⟩ | ⟨h1, h2⟩
  · exact Or.inl ⟨by linarith, by linarith, by linarith⟩
  · refine Or.inr (Or.inl ⟨by linarith, ?_⟩)
    rcases h2 with h2 | h2
    · exact Or.inr (by linarith)
    · exact Or.inl (by linarith)
  · have h0 : det f r = 0 := by linarith
    obtain ⟨c, c0, hx, hy⟩ := det_zero hf hr h0
    have cn : c < 0 := by
      rcases lt_or_gt_of_ne c0 with h | h
      · exact h
      · exact absurd ⟨c, h, hx, hy⟩ hd
    refine Or.inr (Or.inr ⟨h0, ?_⟩)
    have : det r x = c * det f x := by unfold det; rw [hx, hy]; ring
    by_contra hn
    have : 0 ≤ c * det f x := mul_nonneg_of_nonpos_of_nonpos cn.le (not_lt.1 hn)
    linarith

/-- Of two directions one comes first, clockwise from the third. -/
theorem inSector_total' {r f x : Point} (hr : r.x ≠ 0 ∨ r.y ≠ 0) (hf : f.x ≠ 0 ∨ f.y ≠ 0) (hx : x.x ≠ 0 ∨ x.y ≠ 0)
    (h1 : ¬ SameDir f r) (h2 : ¬ SameDir x r) (h3 : ¬ SameDir f x) : InSector f r x ∨ InSector x r f := by
  rcases inSector_total (mirror_ne_zero hr) (mirror_ne_zero hf) (mirror_ne_zero hx)
    (fun h => h1 (Darts.sameDir_symm (sameDir_mirror h))) (fun h => h2 (Darts.sameDir_symm (sameDir_mirror h)))
    (fun h => h3 (sameDir_mirror h)) with h | h
  · exact Or.inl (inSector_of_mirror hf hr h1 h)
  · exact Or.inr (inSector_of_mirror hx hr h2 h)

theorem EndsOnly.noOverlap {E : List Segment} (hp : ∀ e ∈ E, e.Proper) (h : EndsOnly E) : NoOverlap E := by
  refine ⟨hp, List.Pairwise.imp ?_ h⟩
  rintro s t hst ⟨p, q, hne, p1, q1, p2, q2⟩
  have m1 := mk_sub p1 q1 (middle'_mem p q)
  have m2 := mk_sub p2 q2 (middle'_mem p q)
  have ep := (hst p p1 p2).1
  have eq := (hst q q1 q2).1
  have em := (hst _ m1 m2).1
  have n1 : middle' p q ≠ p := fun h => hne (middle'_eq h).symm
  have n2 : middle' p q ≠ q := fun h => hne (middle'_eq' h).symm
  rcases ep with a | a <;> rcases eq with b | b <;> rcases em with c | c
  · exact hne (a.trans b.symm)
  · exact hne (a.trans b.symm)
  · exact n1 (c.trans a.symm)
  · exact n2 (c.trans b.symm)
  · exact n2 (c.trans b.symm)
  · exact n1 (c.trans a.symm)
  · exact hne (a.trans b.symm)
  · exact hne (a.trans b.symm)

namespace Darts

variable {D : Darts}

theorem Next.unique {F : Finset ℕ} (hF : D.Closed F) {i j j' : ℕ} (hi : i < D.n) (h : D.Next F i j) (h' : D.Next F i j') :
    j = j' := by
  by_contra hne
  have lj := hF.lt j h.mem
  have lj' := hF.lt j' h'.mem
  rcases inSector_total' (dir_ne_zero hi) (dir_ne_zero lj) (dir_ne_zero lj') (dir_ne lj hi h.ne h.key)
    (dir_ne lj' hi h'.ne h'.key) (dir_ne lj lj' hne (h.key.trans h'.key.symm)) with g | g
  · exact h.empty j' h'.mem h'.key g
  · exact h'.empty j h.mem h.key g

/-- Every simple closed curve along the boundary of one face of the inside has nothing but the inside in it. -/
def Solid (D : Darts) (F₀ : Finset ℕ) : Prop :=
  ∀ L, D.Loop L → (∀ i ∈ L, i ∈ F₀) → (∀ i ∈ L, ∀ j ∈ L, D.SameFace F₀ i j) →
    (∀ i ∈ L, ∀ q, D.LeftOf F₀ i q → Inside (D.edges F₀) q) →
      ∀ z, z ∉ segsPts (D.edges F₀) → Inside (L.map D.seg) z → Inside (D.edges F₀) z

/-- What remains of the edges bounds parts of the inside. -/
structure Remains (D : Darts) (F₀ F : Finset ℕ) : Prop where
  start : D.Start F₀
  closed : D.Closed F
  even : ∀ q, Even (degree (D.edges F) q)
  sub : F ⊆ F₀
  inside : ∀ z, z ∉ segsPts (D.edges F₀) → Inside (D.edges F) z → Inside (D.edges F₀) z

/-- A loop and the rest -/
theorem rest_same {F : Finset ℕ} (hF : D.Closed F) {R : List ℕ} (hR : D.Loop R) (sub : ∀ i ∈ R, i ∈ F) :
    SameEdges (R.map D.seg ++ D.edges (D.rest F R)) (D.edges F) := by
  classical
  set rep : ℕ → ℕ := fun x => if D.key x < D.key (D.opp x) then x else D.opp x with hrep
  have e2 : (R.map D.seg).map Segment.norm = ((R.map rep).map D.seg).map Segment.norm := by
    rw [List.map_map, List.map_map, List.map_map]
    apply List.map_congr_left
    intro x hx
    simp only [Function.comp, hrep]
    split_ifs
    · rfl
    · have : D.seg (D.opp x) = (D.seg x).swap := by
        unfold Darts.seg Segment.swap
        rw [D.opp_opp x (hR.lt x hx)]
      rw [this, norm_swap]
  unfold SameEdges
  rw [List.map_append, e2]
  unfold Darts.edges
  rw [← List.map_append, ← List.map_append]
  refine (List.Perm.map _ ?_).map _
  have memR : ∀ x, x ∈ R.map rep → x ∈ F ∧ D.key x < D.key (D.opp x) ∧ (x ∈ R ∨ D.opp x ∈ R) := by
    intro x hx
    obtain ⟨y, hy, rfl⟩ := List.mem_map.1 hx
    have ly := hR.lt y hy
    simp only [hrep]
    split_ifs with h1
    · exact ⟨sub y hy, h1, Or.inl hy⟩
    · refine ⟨hF.opp y (sub y hy), ?_, ?_⟩
      · rw [D.opp_opp y ly]
        exact lt_of_le_of_ne (not_lt.1 h1) (Ne.symm (D.ne y ly))
      · rw [D.opp_opp y ly]; exact Or.inr hy
  refine (List.perm_ext_iff_of_nodup ?_ (Finset.nodup_toList _)).2 ?_
  · refine List.Nodup.append (hR.nodup.map_on ?_) (Finset.nodup_toList _) ?_
    · intro x hx y hy hxy
      simp only [hrep] at hxy
      split_ifs at hxy with h1 h2 h2
      · exact hxy
      · rw [hxy] at hx; exact absurd hx (hR.opp y hy)
      · rw [← hxy] at hy; exact absurd hy (hR.opp x hx)
      · exact opp_inj (hR.lt x hx) (hR.lt y hy) hxy
    · intro x h1 h2
      rw [Finset.mem_toList, Finset.mem_filter, mem_rest] at h2
      rcases (memR x h1).2.2 with h | h
      · exact h2.1.2.1 h
      · exact h2.1.2.2 h
  · intro x
    rw [List.mem_append, Finset.mem_toList, Finset.mem_filter, Finset.mem_toList, Finset.mem_filter, mem_rest]
    constructor
    · rintro (h | ⟨⟨h, -, -⟩, h'⟩)
      · exact ⟨(memR x h).1, (memR x h).2.1⟩
      · exact ⟨h, h'⟩
    · rintro ⟨h1, h2⟩
      by_cases h3 : x ∈ R
      · exact Or.inl (List.mem_map.2 ⟨x, h3, by simp only [hrep]; rw [if_pos h2]⟩)
      · by_cases h4 : D.opp x ∈ R
        · refine Or.inl (List.mem_map.2 ⟨D.opp x, h4, ?_⟩)
          simp only [hrep]
          rw [D.opp_opp x (hF.lt x h1), if_neg (lt_asymm h2)]
        · exact Or.inr ⟨⟨h1, h3, h4⟩, h2⟩

namespace Remains

variable {F₀ F : Finset ℕ}

theorem init (h : D.Start F₀) : D.Remains F₀ F₀ := ⟨h, h.closed, h.even, fun _ h => h, fun _ _ h => h⟩

theorem noOverlap {F : Finset ℕ} (h : D.Closed F) : NoOverlap (D.edges F) :=
  EndsOnly.noOverlap h.proper (edges_ends h)

/-- A way off the remaining edges within the region which they bound meets no edge. -/
theorem linked (h : D.Remains F₀ F) {x y : Point} (hx : Inside (D.edges F) x) (hl : Linked (D.edges F) x y) :
    Linked (D.edges F₀) x y := by
  have main : ∀ {y}, Linked (D.edges F) x y → Inside (D.edges F) y ∧ Linked (D.edges F₀) x y := by
    intro y hl
    induction hl with
    | refl => exact ⟨hx, Relation.ReflTransGen.refl⟩
    | @tail b c _ g ih =>
      refine ⟨(inside_const h.closed.proper h.even (s := ⟨b, c⟩) g).1 ih.1, ih.2.tail ?_⟩
      intro m hm hm0
      have im : Inside (D.edges F) m := (inside_const h.closed.proper h.even (s := ⟨b, m⟩)
        (fun r hr => g r (mk_sub (Segment.start_mem ⟨b, c⟩) hm hr))).1 ih.1
      obtain ⟨δ, δ0, hδ⟩ := inside_near h.closed.proper h.even (g m hm)
      obtain ⟨-, z, hz, -, hz', hz''⟩ := near_both (X := []) (noOverlap h.start.closed) h.start.even hm0 (by simp) δ0
      exact hz'' (h.inside z hz' ((hδ z hz).2.2 im))
  exact (main hl).2

theorem first (h : D.Remains F₀ F) {d : ℕ} (hd : d ∈ F) (least : ∀ i ∈ F, d ≤ i) : D.First F d :=
  ⟨h.start.sorted, h.closed, h.even, hd, least⟩

theorem sub_pts (h : D.Remains F₀ F) : segsPts (D.edges F) ⊆ segsPts (D.edges F₀) :=
  h.closed.sub_pts h.start.closed h.sub

/-- The first edge has the inside on its left. -/
theorem left_first (h : D.Remains F₀ F) {d : ℕ} (hd : D.First F d) {q : Point} (hq : D.LeftOf F d q) :
    Inside (D.edges F) q := by
  obtain ⟨t₀, t0, ht⟩ := hd.below_start
  have hr := ht t₀ t0 le_rfl
  rw [h.closed.flip h.even hd.mem hq hr]
  intro hi
  have : ((D.edges F).countP fun e => decide (IsBelow e ⟨(D.key d).x, (D.key d).y - t₀⟩)) = 0 := by
    rw [List.countP_eq_zero]
    intro e he
    obtain ⟨i, hi, -, rfl⟩ := mem_edges.1 he
    simpa using hd.no_below hi t0
  unfold Inside at hi
  rw [this] at hi
  exact absurd hi (by decide)

theorem left_face (h : D.Remains F₀ F) {d : ℕ} (hd : D.First F d) {i : ℕ} (_ : i < D.n) (hf : D.SameFace F d i) {q : Point}
    (hq : D.LeftOf F i q) : Inside (D.edges F) q := by
  obtain ⟨a, ha⟩ := h.closed.exists_left hd.lt
  exact ((hf a q ha hq).inside_iff h.closed.proper h.even).1 (h.left_first hd ha)

theorem leftOf (h : D.Remains F₀ F) {i : ℕ} {q : Point} (hq : D.LeftOf F₀ i q) : D.LeftOf F i q :=
  SideOf.mono hq h.sub_pts

theorem rightOf (h : D.Remains F₀ F) {i : ℕ} {q : Point} (hq : D.RightOf F₀ i q) : D.RightOf F i q :=
  SideOf.mono hq h.sub_pts

/-- Edges along the same face of the remaining ones are along the same face of all. -/
theorem sameFace (h : D.Remains F₀ F) {d : ℕ} (hd : D.First F d) {i j : ℕ} (hi : i < D.n)
    (hf : D.SameFace F d i) (hf' : D.SameFace F d j) : D.SameFace F₀ i j := by
  intro a b ha hb
  exact h.linked (h.left_face hd hi hf (h.leftOf ha))
    (h.closed.sameFace_trans hd.lt hf.symm hf' a b (h.leftOf ha) (h.leftOf hb))

/-- Loops along the face of the first edge have nothing but the inside in them. -/
theorem solid (h : D.Remains F₀ F) (hs : D.Solid F₀) {d : ℕ} (hd : D.First F d) {L : List ℕ} (hL : D.Loop L)
    (sub : ∀ i ∈ L, i ∈ F) (face : ∀ i ∈ L, D.SameFace F d i) {z : Point} (hz : z ∉ segsPts (D.edges F₀))
    (hi : Inside (L.map D.seg) z) : Inside (D.edges F₀) z := by
  refine hs L hL (fun i hi => h.sub (sub i hi))
    (fun i hi j hj => h.sameFace hd (hL.lt i hi) (face i hi) (face j hj)) ?_ z hz hi
  intro i hi q hq
  exact h.inside q hq.off (h.left_face hd (hL.lt i hi) (face i hi) (h.leftOf hq))

/-- A loop along the face of the first edge has the first edge. -/
theorem loop_first (h : D.Remains F₀ F) (hs : D.Solid F₀) {d : ℕ} (hd : D.First F d) {L : List ℕ} (hL : D.Loop L)
    (sub : ∀ i ∈ L, i ∈ F) (face : ∀ i ∈ L, D.SameFace F d i) (n1 : d ∉ L) (n2 : D.opp d ∉ L) : False := by
  obtain ⟨i, hi⟩ := List.exists_mem_of_ne_nil L hL.ne
  have li := hL.lt i hi
  obtain ⟨a, ha⟩ := h.start.closed.exists_left li
  obtain ⟨b, hb⟩ := h.start.closed.exists_right li
  obtain ⟨x, hx⟩ := h.start.closed.exists_left hd.lt
  obtain ⟨y, hy⟩ := h.start.closed.exists_right hd.lt
  have sub₀ : ∀ i ∈ L, i ∈ F₀ := fun i hi => h.sub (sub i hi)
  -- the right of the loop is not in the inside, hence outside of the loop
  have ia : Inside (D.edges F₀) a := h.inside a ha.off (h.left_face hd li (face i hi) (h.leftOf ha))
  have ib : ¬ Inside (D.edges F₀) b := (h.start.closed.flip h.start.even (sub₀ i hi) ha hb).1 ia
  have lb : ¬ Inside (L.map D.seg) b := fun hh => ib (h.solid hs hd hL sub face hb.off hh)
  have la : Inside (L.map D.seg) a := (hL.flip h.start.closed sub₀ hi ha hb).2 lb
  -- the first edge
  have l₀ : Linked (D.edges F₀) x a := h.sameFace hd hd.lt (h.closed.sameFace_refl hd.lt) (face i hi) x a hx ha
  have lx : Inside (L.map D.seg) x :=
    ((l₀.mono (Darts.sub_pts h.start.closed sub₀)).inside_iff hL.proper hL.even).2 la
  have := (hL.both h.start.closed sub₀ (h.sub hd.mem) n1 n2 hx hy).1 lx
  exact hd.outside (h.rightOf hy) hL sub this

theorem next (h : D.Remains F₀ F) (hs : D.Solid F₀) {d : ℕ} (hd : D.First F d) {R : List ℕ} (T : D.Traced F d R) :
    D.Remains F₀ (D.rest F R) where
  start := h.start
  closed := rest_closed h.closed
  even := rest_even h.closed h.even T.loop T.mem
  sub i hi := h.sub (mem_rest.1 hi).1
  inside z hz hi := by
    by_cases hR : Inside (R.map D.seg) z
    · exact h.solid hs hd T.loop T.mem T.face hz hR
    · refine h.inside z hz (((rest_same h.closed T.loop T.mem).inside_iff z).1 ?_)
      rw [inside_append]
      exact ⟨fun h => absurd h hR, fun h => absurd hi h⟩

end Remains

end Darts

end Clipping

import Verif.Lemmas.Plane.Side

/-!
# A face of a plane graph on both sides of a path
-/

namespace Clipping

theorem EndsOnly.perm {A B : List Segment} (h : A.Perm B) (hA : EndsOnly A) : EndsOnly B :=
  (h.pairwise_iff (fun {_ _} h q h1 h2 => (h q h2 h1).symm)).1 hA

theorem EndsOnly.of_ne {A : List Segment} (hA : EndsOnly A) {a b : Segment} (ha : a ∈ A) (hb : b ∈ A) (hne : a ≠ b)
    {q : Point} (h1 : q ∈ a.pts) (h2 : q ∈ b.pts) : a.IsEnd q ∧ b.IsEnd q := by
  classical
  have perm := List.perm_cons_erase ha
  have h := List.pairwise_cons.1 (hA.perm perm)
  exact h.1 b ((List.mem_erase_of_ne (Ne.symm hne)).2 hb) q h1 h2

theorem EndsOnly.alone {A : List Segment} (hA : EndsOnly A) {e g : Segment} (hg : g ∈ A) (h : g.norm = e.norm) :
    Alone A e := by
  have hpts : g.pts = e.pts := by rw [← g.pts_norm, h, e.pts_norm]
  have hend : ∀ q, g.IsEnd q ↔ e.IsEnd q := by
    intro q
    rw [Segment.isEnd_iff, Segment.isEnd_iff]
    have h1 := congrArg Segment.start h
    have h2 := congrArg Segment.stop h
    unfold Segment.norm at h1 h2
    simp only at h1 h2
    rw [h1, h2]
  intro k hk
  by_cases hkg : k = g
  · left; rw [hkg, hpts]
  · right
    intro q h1 h2
    rw [← hpts] at h2
    exact (hend q).1 (hA.of_ne hk hg hkg h1 h2).2

theorem EndsOnly.inner_off {A B : List Segment} {e : Segment} (hA : EndsOnly (A ++ B)) (he : e ∈ A) {m : Point}
    (hm : m ∈ e.pts) (hi : ¬ e.IsEnd m) : m ∉ segsPts B := by
  rintro ⟨g, hg, hmg⟩
  exact hi ((List.pairwise_append.1 hA).2.2 e he g hg m hm hmg).1

/-- The sides of an edge differ. -/
theorem sides_flip {K : List Segment} (hp : ∀ g ∈ K, g.Proper) (hd : ∀ q, Even (degree K q)) (ends : EndsOnly K)
    {e : Segment} (he : e ∈ K) {q q' : Point} (h : SideOf K e 1 q) (h' : SideOf K e (-1) q') :
    Inside K q ↔ ¬ Inside K q' := by
  classical
  have perm := List.perm_cons_erase he
  have al : Alone K e := ends.alone he rfl
  obtain ⟨m, hm, hi⟩ := exists_inner (hp e he)
  have off : m ∉ segsPts (K.erase e) := (ends.perm perm).inner_off (A := [e]) (by simp) hm hi
  have hd' : ∀ q, Even (degree (e :: K.erase e) q) := fun q => by rw [← degree_perm perm]; exact hd q
  obtain ⟨δ, δ0, hδ⟩ := local_sides (fun s hs => hp s (perm.mem_iff.2 hs)) hd' hm hi off
  obtain ⟨δ', δ'0, hδ'⟩ := al.near_side hp hm hi
  have pos : 0 < min δ δ' := lt_min δ0 δ'0
  obtain ⟨x, xn, xc⟩ := exists_left_near (hp e he) hm pos
  obtain ⟨y, yn, yc⟩ := exists_left_near (e := e.swap) (Ne.symm (hp e he)) (by rw [Segment.swap_pts]; exact hm) pos
  have yc' : cross e.swap.start e.swap.stop y = - cross e.start e.stop y := cross_swap _ _ _
  rw [yc'] at yc
  have lx := al.side_linked hp (hp e he) h (hδ' x 1 (xn.mono (min_le_right _ _)) (by linarith))
  have ly := al.side_linked hp (hp e he) h' (hδ' y (-1) (yn.mono (min_le_right _ _)) (by linarith))
  rw [lx.inside_iff hp hd, ly.inside_iff hp hd]
  obtain ⟨-, x1, x2⟩ := hδ x (xn.mono (min_le_left _ _))
  obtain ⟨-, y1, y2⟩ := hδ y (yn.mono (min_le_left _ _))
  simp only [← inside_perm perm] at x1 x2 y1 y2
  rcases e.lo_hi_cases with ⟨e1, e2, -⟩ | ⟨e1, e2, -⟩
  · rw [e1, e2] at x1 y2
    rw [x1 xc, y2 (by linarith)]
  · rw [e1, e2, cross_swap] at x2 y1
    rw [x2 (by linarith), y1 (by linarith)]
    tauto

/-- Both sides of an edge which is not in `K` are connected. -/
theorem sides_same {K : List Segment} {e : Segment} (he : e.Proper)
    (off : ∀ m ∈ e.pts, ¬ e.IsEnd m → m ∉ segsPts K) {E : List Segment} (sub : segsPts K ⊆ segsPts E) {σ σ' : ℚ}
    {q q' : Point} (h : SideOf E e σ q) (h' : SideOf E e σ' q') : Linked K q q' := by
  obtain ⟨m, hm, hi, hr, -⟩ := h
  obtain ⟨m', hm', hi', hr', -⟩ := h'
  have l1 : Free K m q := by
    intro r h1 h2
    have := hr r h1 (sub h2)
    rw [this] at h2
    exact off m hm hi h2
  have l2 : Free K m' q' := by
    intro r h1 h2
    have := hr' r h1 (sub h2)
    rw [this] at h2
    exact off m' hm' hi' h2
  have l3 : Free K m m' := by
    intro z hz
    refine off z (mk_sub hm hm' hz) fun hh => ?_
    have := end_between he hm' hi' hm hz hh
    rw [this] at hh
    exact hi hh
  exact l1.symm.linked.trans (l3.linked.trans l2.linked)

/-- No face of a plane graph is on the left of all edges of a simple closed curve and on the same side of it as a
path which connects two of its vertices. -/
theorem theta {T α β Q : List Segment} (hpT : ∀ g ∈ T, g.Proper) (hp : ∀ g ∈ α ++ β ++ Q, g.Proper)
    (ends : EndsOnly (α ++ β ++ Q)) (sub : segsPts (α ++ β ++ Q) ⊆ segsPts T) {c : Contour} (hc : SimpleContour c)
    (hce : SameEdges (α ++ β) c.edges) (evL : ∀ q, Even (degree (α ++ β) q)) (evK : ∀ q, Even (degree (α ++ Q) q))
    {e f : Segment} (he : e ∈ α) (hf : f ∈ β) (ae : Alone T e) (af : Alone T f) {q q' : Point} (hq : SideOf T e 1 q)
    (hq' : SideOf T f 1 q') (hl : Linked T q q')
    (hQ : ∀ m ∈ segsPts Q, m ∉ segsPts (α ++ β) → (Inside (α ++ β) m ↔ Inside (α ++ β) q)) : False := by
  have mem_e : e ∈ α ++ β := List.mem_append_left _ he
  have mem_f : f ∈ α ++ β := List.mem_append_right _ hf
  have pe := hp e (List.mem_append_left _ mem_e)
  have pf := hp f (List.mem_append_left _ mem_f)
  have hpL : ∀ g ∈ α ++ β, g.Proper := fun g hg => hp g (List.mem_append_left _ hg)
  have hpK : ∀ g ∈ α ++ Q, g.Proper := by
    intro g hg
    rcases List.mem_append.1 hg with h | h
    · exact hpL g (List.mem_append_left _ h)
    · exact hp g (List.mem_append_right _ h)
  have endsL : EndsOnly (α ++ β) := (List.pairwise_append.1 ends).1
  have perm : (α ++ β ++ Q).Perm (α ++ Q ++ β) := by
    rw [List.append_assoc, List.append_assoc]
    exact (List.perm_append_comm).append_left _
  have ends' := ends.perm perm
  have endsK : EndsOnly (α ++ Q) := (List.pairwise_append.1 ends').1
  have subL : segsPts (α ++ β) ⊆ segsPts T := fun z hz => sub (by rw [segsPts_append]; exact Or.inl hz)
  have subK : segsPts (α ++ Q) ⊆ segsPts T := fun z hz => sub (by
    rw [segsPts_perm perm, segsPts_append]; exact Or.inl hz)
  obtain ⟨x, hx⟩ := ae.exists_side hpT pe (σ := -1) (Or.inr rfl)
  obtain ⟨y, hy⟩ := af.exists_side hpT pf (σ := -1) (Or.inr rfl)
  -- the curve
  have lL := (hl.mono subL).inside_iff hpL evL
  have fe := sides_flip hpL evL endsL mem_e (hq.mono subL) (hx.mono subL)
  have ff := sides_flip hpL evL endsL mem_f (hq'.mono subL) (hy.mono subL)
  have hxy : Inside (α ++ β) x ↔ Inside (α ++ β) y := by clear * - lL fe ff; tauto
  have link : Linked c.edges x y := by
    refine (hc.linked_iff ?_ ?_).2 ?_
    · rw [← hce.segsPts_eq]; exact (hx.mono subL).off
    · rw [← hce.segsPts_eq]; exact (hy.mono subL).off
    · rw [← hce.inside_iff, ← hce.inside_iff]; exact hxy
  have link : Linked (α ++ β) x y := link.mono hce.segsPts_eq.subset
  -- the path does not meet the way on the other side
  have linkK : Linked (α ++ Q) x y := by
    have : ∀ z, Linked (α ++ β) x z → Linked (α ++ Q) x z := by
      intro z hz
      induction hz with
      | refl => exact Relation.ReflTransGen.refl
      | @tail a b hab g ih =>
        refine ih.tail fun r hr h => ?_
        rw [segsPts_append] at h
        rcases h with h | h
        · exact g r hr (by rw [segsPts_append]; exact Or.inl h)
        · have roff := g r hr
          have hxr : Linked (α ++ β) x r := hab.tail (g.sub hr)
          have g1 := hxr.inside_iff hpL evL
          have g2 := hQ r h roff
          clear * - g1 g2 fe; tauto
    exact this y link
  have i1 := linkK.inside_iff hpK evK
  have i2 := (hl.mono subK).inside_iff hpK evK
  have i3 := sides_flip hpK evK endsK (List.mem_append_left _ he) (hq.mono subK) (hx.mono subK)
  have i4 := (sides_same pf (K := α ++ Q) (fun m hm hi => by
    have e2 : EndsOnly (β ++ (α ++ Q)) := ends'.perm List.perm_append_comm
    exact e2.inner_off hf hm hi) subK hq' hy).inside_iff hpK evK
  clear * - i1 i2 i3 i4; tauto

end Clipping

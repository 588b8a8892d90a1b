import Verif.Lemmas.Region.Local
import Verif.Spec.Shrink
import Verif.Model.Shaped

/-!
# Dropping collinear vertices of contours
-/

namespace Clipping

open Sweep

/-! ## Joining two edges -/

/-- One of three points of a line is between the others. -/
theorem collinear_cases {a b c : Point} (h : cross a b c = 0) :
    b ∈ (Segment.mk a c).pts ∨ a ∈ (Segment.mk b c).pts ∨ c ∈ (Segment.mk a b).pts := by
  have key : ∀ {a b c : Point}, cross a b c = 0 → a ≤ b → b ≤ c → b ∈ (Segment.mk a c).pts := by
    intro a b c h hab hbc
    rcases (hab.trans hbc).eq_or_lt with e | lt
    · have : b = a := le_antisymm (e ▸ hbc) hab
      rw [this]; exact Segment.start_mem _
    · rw [Segment.mem_mk_iff lt]
      refine ⟨?_, hab, hbc⟩
      rw [cross_rot, cross_swap, ← cross_rot, h, neg_zero]
  have h1 : cross a c b = 0 := by rw [cross_rot, cross_swap, ← cross_rot, h, neg_zero]
  have h2 : cross b a c = 0 := by rw [cross_swap, h, neg_zero]
  have h3 : cross b c a = 0 := by rw [← cross_rot, h]
  have h4 : cross c a b = 0 := by rw [← cross_rot, ← cross_rot, h]
  have h5 : cross c b a = 0 := by rw [cross_swap, h3, neg_zero]
  rcases le_total a b with ab | ab <;> rcases le_total b c with bc | bc <;> rcases le_total a c with ac | ac
  · exact Or.inl (key h ab bc)
  · exact Or.inl (key h ab bc)
  · exact Or.inr (Or.inr (key h1 ac bc))
  · right; left; rw [Segment.pts_swap]; exact key h4 ac ab
  · right; left; exact key h2 ab ac
  · right; right; rw [Segment.pts_swap]; exact key h3 bc ac
  · left; rw [Segment.pts_swap]; exact key h5 bc ab
  · left; rw [Segment.pts_swap]; exact key h5 bc ab

theorem isBelow_join {a b c : Point} (hb : b ∈ (Segment.mk a c).pts) (m : Point) :
    (IsBelow ⟨a, c⟩ m ↔ (IsBelow ⟨a, b⟩ m ∨ IsBelow ⟨b, c⟩ m)) ∧ ¬ (IsBelow ⟨a, b⟩ m ∧ IsBelow ⟨b, c⟩ m) := by
  have key : ∀ {a b c : Point}, b ∈ (Segment.mk a c).pts → a ≤ c →
      (IsBelow ⟨a, c⟩ m ↔ (IsBelow ⟨a, b⟩ m ∨ IsBelow ⟨b, c⟩ m)) ∧ ¬ (IsBelow ⟨a, b⟩ m ∧ IsBelow ⟨b, c⟩ m) := by
    intro a b c hb hac
    have l1 := Segment.lo_le_of_mem hb
    have l2 := Segment.le_hi_of_mem hb
    have e0 : (Segment.mk a c).lo = a := min_eq_left hac
    have e0' : (Segment.mk a c).hi = c := max_eq_right hac
    rw [e0] at l1
    rw [e0'] at l2
    have e1 : (Segment.mk a b).lo = a := min_eq_left l1
    have e1' : (Segment.mk a b).hi = b := max_eq_right l1
    have e2 : (Segment.mk b c).lo = b := min_eq_left l2
    have e2' : (Segment.mk b c).hi = c := max_eq_right l2
    unfold IsBelow
    rw [e0, e0', e1, e1', e2, e2']
    have xa : a.x ≤ b.x := by rw [Point.le_def] at l1; rcases l1 with h | h <;> [exact h.le; exact h.1.le]
    have xc : b.x ≤ c.x := by rw [Point.le_def] at l2; rcases l2 with h | h <;> [exact h.le; exact h.1.le]
    obtain ⟨t, t0, t1, tx, ty⟩ := hb
    simp only at tx ty
    have c1 : cross a b m = t * cross a c m := by
      unfold cross; rw [tx, ty]; ring
    have c2 : cross b c m = (1 - t) * cross a c m := by
      unfold cross; rw [tx, ty]; ring
    refine ⟨⟨?_, ?_⟩, ?_⟩
    · rintro ⟨h1, h2, h3⟩
      by_cases hm : m.x < b.x
      · left
        refine ⟨h1, hm, ?_⟩
        rw [c1]
        have : 0 < t := by
          rcases t0.eq_or_lt with e | e
          · rw [← e] at tx; rw [tx] at hm; linarith
          · exact e
        positivity
      · right
        push Not at hm
        refine ⟨hm, h2, ?_⟩
        rw [c2]
        have : 0 < 1 - t := by
          rcases t1.eq_or_lt with e | e
          · rw [e] at tx; linarith
          · linarith
        positivity
    · rintro (⟨h1, h2, h3⟩ | ⟨h1, h2, h3⟩)
      · refine ⟨h1, by linarith, ?_⟩
        rw [c1] at h3
        exact pos_of_mul_pos_right h3 t0
      · refine ⟨by linarith, h2, ?_⟩
        rw [c2] at h3
        exact pos_of_mul_pos_right h3 (by linarith)
    · rintro ⟨⟨-, h, -⟩, ⟨h', -⟩⟩
      linarith
  rcases le_total a c with h | h
  · exact key hb h
  · have := key (Segment.pts_swap a c ▸ hb) h
    have s : ∀ u v : Point, IsBelow ⟨u, v⟩ m ↔ IsBelow ⟨v, u⟩ m := fun u v => isBelow_swap ⟨v, u⟩ m
    rw [s a c, s a b, s b c]
    constructor
    · rw [this.1]; exact or_comm
    · rw [and_comm]; exact this.2

/-- Some edges of `E` are joined with their continuations. -/
inductive Coarser : List Segment → List Segment → Prop
  | perm {E E' : List Segment} : E.Perm E' → Coarser E E'
  | join {a b c : Point} (E : List Segment) : b ∈ (Segment.mk a c).pts → a ≠ c →
      Coarser (⟨a, b⟩ :: ⟨b, c⟩ :: E) (⟨a, c⟩ :: E)
  | trans {E E' E'' : List Segment} : Coarser E E' → Coarser E' E'' → Coarser E E''

namespace Coarser

theorem refl (E : List Segment) : Coarser E E := perm (List.Perm.refl _)

theorem append_right {E E' : List Segment} (h : Coarser E E') (X : List Segment) : Coarser (E ++ X) (E' ++ X) := by
  induction h with
  | perm h => exact perm (h.append_right X)
  | join E hb hne => exact join (E ++ X) hb hne
  | trans _ _ h1 h2 => exact trans h1 h2

theorem append {E E' X X' : List Segment} (h : Coarser E E') (h' : Coarser X X') : Coarser (E ++ X) (E' ++ X') := by
  refine trans (h.append_right X) (trans (perm List.perm_append_comm) (trans (h'.append_right E') ?_))
  exact perm List.perm_append_comm

theorem flatMap {ι : Type} (l : List ι) (f g : ι → List Segment) (h : ∀ i ∈ l, Coarser (f i) (g i)) :
    Coarser (l.flatMap f) (l.flatMap g) := by
  induction l with
  | nil => exact refl _
  | cons i l ih =>
    rw [List.flatMap_cons, List.flatMap_cons]
    exact (h i (by simp)).append (ih fun j hj => h j (by simp [hj]))

theorem swap {E E' : List Segment} (h : Coarser E E') : Coarser (E.map Segment.swap) (E'.map Segment.swap) := by
  induction h with
  | perm h => exact perm (h.map _)
  | @join a b c E hb hne =>
    simp only [List.map_cons]
    refine trans (perm (List.Perm.swap _ _ _)) ?_
    exact join _ (Segment.pts_swap a c ▸ hb) hne.symm
  | trans _ _ h1 h2 => exact trans h1 h2

theorem segsPts_eq {E E' : List Segment} (h : Coarser E E') : segsPts E' = segsPts E := by
  induction h with
  | perm h => exact segsPts_perm h.symm
  | @join a b c E hb hne =>
    have := split_pts hb
    simp only at this
    ext q
    unfold segsPts
    simp only [List.mem_cons, Set.mem_ofPred_eq, exists_eq_or_imp]
    rw [← this]
    simp only [Set.mem_union]
    tauto
  | trans _ _ h1 h2 => rw [h2, h1]

theorem inside_iff {E E' : List Segment} (h : Coarser E E') (m : Point) : Inside E' m ↔ Inside E m := by
  induction h with
  | perm h => exact (inside_perm h m).symm
  | @join a b c E hb hne =>
    obtain ⟨h1, h2⟩ := isBelow_join hb m
    unfold Inside
    rw [List.countP_cons, List.countP_cons, List.countP_cons]
    by_cases p1 : IsBelow ⟨a, b⟩ m <;> by_cases p2 : IsBelow ⟨b, c⟩ m
    · exact absurd ⟨p1, p2⟩ h2
    · have : IsBelow ⟨a, c⟩ m := h1.2 (Or.inl p1)
      simp [p1, p2, this]
    · have : IsBelow ⟨a, c⟩ m := h1.2 (Or.inr p2)
      simp [p1, p2, this]
    · have : ¬ IsBelow ⟨a, c⟩ m := fun h => (h1.1 h).elim p1 p2
      simp [p1, p2, this]
  | trans _ _ h1 h2 => rw [h2, h1]

theorem regionPts_eq {E E' : List Segment} (h : Coarser E E') : regionPts E' = regionPts E := by
  unfold regionPts
  rw [h.segsPts_eq]
  ext m
  simp only [Set.mem_ofPred_eq, h.inside_iff]

theorem noOverlap {E E' : List Segment} (h : Coarser E E') (hE : NoOverlap E) : NoOverlap E' := by
  induction h with
  | perm h =>
    refine ⟨fun s hs => hE.1 s (h.mem_iff.2 hs), hE.2.perm h ?_⟩
    rintro s t hst ⟨p, q, h1, h2, h3, h4, h5⟩
    exact hst ⟨p, q, h1, h4, h5, h2, h3⟩
  | @join a b c E hb hne =>
    obtain ⟨hp, ho⟩ := hE
    rw [List.pairwise_cons, List.pairwise_cons] at ho
    obtain ⟨o1, o2, o3⟩ := ho
    refine ⟨?_, ?_⟩
    · intro s hs
      rcases List.mem_cons.1 hs with rfl | hs
      · exact hne
      · exact hp s (by simp [hs])
    · rw [List.pairwise_cons]
      refine ⟨?_, o3⟩
      rintro g hg ⟨p, q, hpq, p1, q1, p2, q2⟩
      have sp := split_pts hb
      simp only at sp
      rw [← sp] at p1 q1
      have n1 := o1 g (by simp [hg])
      have n2 := o2 g hg
      have mid : ∀ {p q : Point}, p ∈ (Segment.mk a b).pts → q ∈ (Segment.mk b c).pts → p ∈ g.pts → q ∈ g.pts →
          p ≠ q → False := by
        intro p q hp hq pg qg hpq
        have hbg : b ∈ g.pts := by
          refine pts_convex pg qg ?_
          have hp' : p ∈ (Segment.mk a c).pts := sp ▸ Or.inl hp
          have hq' : q ∈ (Segment.mk a c).pts := sp ▸ Or.inr hq
          have hcol : cross p b q = 0 := by
            obtain ⟨t, -, -, tx, ty⟩ := hp'
            obtain ⟨u, -, -, ux, uy⟩ := hq'
            obtain ⟨v, -, -, vx, vy⟩ := hb
            simp only at tx ty ux uy vx vy
            unfold cross
            rw [tx, ty, ux, uy, vx, vy]; ring
          rcases collinear_cases hcol with h | h | h
          · exact h
          · have : p ∈ (Segment.mk b c).pts := pts_convex (Segment.start_mem _) hq h
            have := split_common (s := ⟨a, c⟩) hb hp this
            rw [this]; exact Segment.start_mem _
          · have : q ∈ (Segment.mk a b).pts := pts_convex hp (Segment.stop_mem _) h
            have := split_common (s := ⟨a, c⟩) hb this hq
            rw [this]; exact Segment.stop_mem _
        by_cases e : p = b
        · subst e; exact n2 ⟨p, q, hpq, Segment.start_mem _, hq, pg, qg⟩
        · exact n1 ⟨p, b, e, hp, Segment.stop_mem _, pg, hbg⟩
      rcases p1 with p1 | p1 <;> rcases q1 with q1 | q1
      · exact n1 ⟨p, q, hpq, p1, q1, p2, q2⟩
      · exact mid p1 q1 p2 q2 hpq
      · exact mid q1 p1 q2 p2 hpq.symm
      · exact n2 ⟨p, q, hpq, p1, q1, p2, q2⟩
  | trans _ _ h1 h2 => exact h2 (h1 hE)

end Coarser

/-! ## Contours -/

theorem vtx_rotate (vs : List Point) (k j : ℕ) : vtx ⟨vs.rotate k⟩ j = vtx ⟨vs⟩ (j + k) := by
  rcases Nat.eq_zero_or_pos vs.length with h | h
  · rw [List.length_eq_zero_iff.1 h]; simp [vtx, vertexAt]
  · unfold vtx vertexAt
    simp only [List.length_rotate]
    have lt : j % vs.length < (vs.rotate k).length := by rw [List.length_rotate]; exact Nat.mod_lt _ h
    rw [List.getD_eq_getElem?_getD, List.getD_eq_getElem?_getD, List.getElem?_eq_getElem lt, List.getElem_rotate,
      List.getElem?_eq_getElem (Nat.mod_lt _ h)]
    simp

theorem edges_rotated {vs ws : List Point} (h : vs ~r ws) : (Contour.mk vs).edges.Perm (Contour.mk ws).edges := by
  obtain ⟨k, rfl⟩ := h
  rcases Nat.eq_zero_or_pos vs.length with h0 | h0
  · rw [List.length_eq_zero_iff.1 h0]; simp
  · rw [contour_edges_eq, contour_edges_eq]
    simp only [List.length_rotate]
    have e : cycEdges (vtx ⟨vs.rotate k⟩) 0 vs.length = cycEdges (vtx ⟨vs⟩) k vs.length := by
      unfold cycEdges
      apply List.map_congr_left
      intro i _
      rw [vtx_rotate, vtx_rotate, show 0 + i + k = k + i by ring, show 0 + i + 1 + k = k + i + 1 by ring]
    rw [e]
    clear e
    induction k with
    | zero => rfl
    | succ k ih =>
      refine ih.trans ?_
      obtain ⟨n, hn⟩ : ∃ n, vs.length = n + 1 := ⟨vs.length - 1, by omega⟩
      rw [hn, cycEdges_succ, cycEdges_succ']
      have : (⟨vtx ⟨vs⟩ (k + 1 + n), vtx ⟨vs⟩ (k + 1 + n + 1)⟩ : Segment) = ⟨vtx ⟨vs⟩ k, vtx ⟨vs⟩ (k + 1)⟩ := by
        have := vtx_add ⟨vs⟩ k
        have t := vtx_add ⟨vs⟩ (k + 1)
        simp only [hn] at this t
        rw [show k + 1 + n = k + (n + 1) by ring, show k + (n + 1) + 1 = k + 1 + (n + 1) by ring, this, t]
      rw [this]
      exact (List.perm_append_singleton _ _).symm

theorem EndsOnly.perm {E E' : List Segment} (h : E.Perm E') (hE : EndsOnly E) : EndsOnly E' :=
  List.Pairwise.perm hE h fun hst q h1 h2 => (hst q h2 h1).symm

theorem SimpleContour.rotated {vs ws : List Point} (h : vs ~r ws) (hs : SimpleContour ⟨vs⟩) : SimpleContour ⟨ws⟩ where
  three := h.perm.length_eq ▸ hs.three
  nodup := h.nodup_iff.1 hs.nodup
  ends := hs.ends.perm (edges_rotated h)

/-- The edges between consecutive vertices -/
def pathEdges (l : List Point) : List Segment := List.zipWith Segment.mk l l.tail

theorem edges_path (v : Point) (vs : List Point) : (Contour.mk (v :: vs)).edges =
    pathEdges (v :: vs) ++ [⟨(v :: vs).getLast (by simp), v⟩] := by
  unfold Contour.edges pathEdges
  simp only [List.tail_cons]
  induction vs generalizing v with
  | nil => rfl
  | cons w ws ih =>
    have g : ∀ (v x : Point) (vs : List Point), List.zipWith Segment.mk (v :: vs) (vs ++ [x]) =
        List.zipWith Segment.mk (v :: vs) vs ++ [⟨(v :: vs).getLast (by simp), x⟩] := by
      intro v x vs
      induction vs generalizing v with
      | nil => rfl
      | cons w ws ih => simp only [List.cons_append, List.zipWith_cons_cons, ih, List.getLast_cons_cons]
    rw [g]

theorem mem_pathEdges {l : List Point} {e : Segment} (h : e ∈ pathEdges l) : e.start ∈ l ∧ e.stop ∈ l := by
  unfold pathEdges at h
  rw [List.zipWith_eq_zipWith_take_min] at h
  obtain ⟨i, hi, rfl⟩ := List.mem_iff_getElem.1 h
  simp only [List.getElem_zipWith, List.getElem_take]
  exact ⟨List.getElem_mem _, List.mem_of_mem_tail (List.getElem_mem _)⟩

theorem edges_three (a b c : Point) (rest : List Point) :
    (Contour.mk (a :: b :: c :: rest)).edges =
      ⟨a, b⟩ :: ⟨b, c⟩ :: (pathEdges (c :: rest) ++ [⟨(c :: rest).getLast (by simp), a⟩]) ∧
    (Contour.mk (a :: c :: rest)).edges =
      ⟨a, c⟩ :: (pathEdges (c :: rest) ++ [⟨(c :: rest).getLast (by simp), a⟩]) := by
  rw [edges_path, edges_path]
  constructor <;> simp [pathEdges]

/-- In a simple contour the middle one of three consecutive vertices of a line is between the others, and there is
another vertex. -/
theorem SimpleContour.middle {a b c : Point} {rest : List Point} (h : SimpleContour ⟨a :: b :: c :: rest⟩)
    (hc : cross a b c = 0) : b ∈ (Segment.mk a c).pts ∧ rest ≠ [] := by
  have nd := h.nodup
  have he := h.ends
  simp only [List.nodup_cons, List.mem_cons, not_or] at nd
  rw [(edges_three a b c rest).1] at he
  unfold EndsOnly at he
  rw [List.pairwise_cons] at he
  obtain ⟨e1, -⟩ := he
  obtain ⟨⟨ab, ac, -⟩, ⟨bc, -⟩, -⟩ := nd
  have hb : b ∈ (Segment.mk a c).pts := by
    rcases collinear_cases hc with h | h | h
    · exact h
    · exfalso
      have := (e1 ⟨b, c⟩ (by simp) a (Segment.start_mem _) h).2
      rcases this with h | h
      · exact ab h
      · exact ac h
    · exfalso
      have := (e1 ⟨b, c⟩ (by simp) c h (Segment.stop_mem _)).1
      rcases this with h | h
      · exact ac h.symm
      · exact bc h.symm
  refine ⟨hb, ?_⟩
  rintro rfl
  have := (e1 ⟨c, a⟩ (by simp [pathEdges]) b (Segment.stop_mem _) (Segment.pts_swap a c ▸ hb)).2
  rcases this with h | h
  · exact bc h
  · exact ab h.symm

theorem SimpleContour.drop {vs ws : List Point} (h : SimpleContour ⟨vs⟩) (hd : DropsVertex vs ws) :
    SimpleContour ⟨ws⟩ ∧ Coarser (Contour.mk vs).edges (Contour.mk ws).edges := by
  obtain ⟨a, b, c, rest, r1, r2, hc⟩ := hd
  have h' := h.rotated r1
  obtain ⟨hb, hr⟩ := h'.middle hc
  have nd := h'.nodup
  have he := h'.ends
  simp only [List.nodup_cons, List.mem_cons, not_or] at nd
  obtain ⟨⟨ab, ac, ar⟩, ⟨bc, br⟩, ⟨cr, rr⟩⟩ := nd
  obtain ⟨d1, d2⟩ := edges_three a b c rest
  have co : Coarser (Contour.mk (a :: b :: c :: rest)).edges (Contour.mk (a :: c :: rest)).edges := by
    rw [d1, d2]; exact Coarser.join _ hb ac
  refine ⟨SimpleContour.rotated r2.symm ?_, (Coarser.perm (edges_rotated r1)).trans
    (co.trans (Coarser.perm (edges_rotated r2.symm)))⟩
  refine ⟨?_, by simp only [List.nodup_cons, List.mem_cons, not_or]; exact ⟨⟨ac, ar⟩, cr, rr⟩, ?_⟩
  · have : 0 < rest.length := List.length_pos_iff.2 hr
    simp only [List.length_cons]; omega
  · rw [d2]
    rw [d1] at he
    set X := pathEdges (c :: rest) ++ [⟨(c :: rest).getLast (by simp), a⟩] with hX
    unfold EndsOnly at he ⊢
    rw [List.pairwise_cons, List.pairwise_cons] at he
    rw [List.pairwise_cons]
    obtain ⟨e1, e2, e3⟩ := he
    refine ⟨?_, e3⟩
    intro g hg q q1 q2
    have hgb : ¬ g.IsEnd b := by
      rw [hX, List.mem_append, List.mem_singleton] at hg
      rcases hg with hg | rfl
      · obtain ⟨m1, m2⟩ := mem_pathEdges hg
        rintro (e | e)
        · rw [← e] at m1; rcases List.mem_cons.1 m1 with h | h <;> [exact bc h; exact br h]
        · rw [← e] at m2; rcases List.mem_cons.1 m2 with h | h <;> [exact bc h; exact br h]
      · rintro (e | e)
        · simp only at e
          have : b ∈ c :: rest := e ▸ List.getLast_mem _
          rcases List.mem_cons.1 this with h | h <;> [exact bc h; exact br h]
        · exact ab e.symm
    have sp := split_pts hb
    simp only at sp
    rw [← sp] at q1
    rcases q1 with q1 | q1
    · obtain ⟨f1, f2⟩ := e1 g (by simp [hg]) q q1 q2
      refine ⟨?_, f2⟩
      rcases f1 with e | e
      · exact Or.inl e
      · simp only at e; rw [e] at f2; exact absurd f2 hgb
    · obtain ⟨f1, f2⟩ := e2 g hg q q1 q2
      refine ⟨?_, f2⟩
      rcases f1 with e | e
      · simp only at e; rw [e] at f2; exact absurd f2 hgb
      · exact Or.inr e

theorem SimpleContour.drops {vs ws : List Point} (h : SimpleContour ⟨vs⟩) (hd : DropsVertices vs ws) :
    SimpleContour ⟨ws⟩ ∧ Coarser (Contour.mk vs).edges (Contour.mk ws).edges := by
  induction hd with
  | refl => exact ⟨h, Coarser.refl _⟩
  | step h1 _ ih =>
    obtain ⟨s1, c1⟩ := h.drop h1
    obtain ⟨s2, c2⟩ := ih s1
    exact ⟨s2, c1.trans c2⟩

/-! ## The code -/

theorem dropsVertex_of_vtx {vs : List Point} (h3 : 3 ≤ vs.length) {n : ℕ}
    (h : cross (vtx ⟨vs⟩ n) (vtx ⟨vs⟩ (n + 1)) (vtx ⟨vs⟩ (n + 2)) = 0) :
    DropsVertex vs (vs.eraseIdx ((n + 1) % vs.length)) := by
  set L := vs.length with hL
  -- the list from the vertex before the dropped one on
  have hk : ∃ k < L, vtx ⟨vs⟩ n = vtx ⟨vs⟩ k ∧ vtx ⟨vs⟩ (n + 1) = vtx ⟨vs⟩ (k + 1) ∧
      vtx ⟨vs⟩ (n + 2) = vtx ⟨vs⟩ (k + 2) ∧ (n + 1) % L = (k + 1) % L := by
    refine ⟨n % L, Nat.mod_lt _ (by omega), ?_, ?_, ?_, ?_⟩
    · unfold vtx; simp only [← hL, Nat.mod_mod]
    · unfold vtx; simp only [← hL, Nat.mod_add_mod]
    · unfold vtx; simp only [← hL, Nat.mod_add_mod]
    · simp only [Nat.mod_add_mod]
  obtain ⟨k, hk, e1, e2, e3, e4⟩ := hk
  rw [e1, e2, e3] at h
  rw [e4]
  clear e1 e2 e3 e4
  have v : ∀ j, vtx ⟨vs⟩ (k + j) = vtx ⟨vs.rotate k⟩ j := by intro j; rw [vtx_rotate, add_comm]
  rw [v 1, v 2, show vtx ⟨vs⟩ k = vtx ⟨vs.rotate k⟩ 0 from v 0] at h
  have dec : ∃ a b c rest, vs.rotate k = a :: b :: c :: rest := by
    have : 3 ≤ (vs.rotate k).length := by rw [List.length_rotate]; exact h3
    match vs.rotate k, this with
    | a :: b :: c :: rest, _ => exact ⟨a, b, c, rest, rfl⟩
  obtain ⟨a, b, c, rest, hr⟩ := dec
  refine ⟨a, b, c, rest, ⟨k, hr⟩, ?_, ?_⟩
  · have hd : vs.drop k ++ vs.take k = a :: b :: c :: rest := by
      rw [← List.rotate_eq_drop_append_take hk.le, hr]
    by_cases hlast : k + 1 < L
    · rw [Nat.mod_eq_of_lt hlast]
      -- the dropped vertex is not the first one
      have d1 : ∃ a' b' post, vs.drop k = a' :: b' :: post := by
        have : 2 ≤ (vs.drop k).length := by rw [List.length_drop]; omega
        match vs.drop k, this with
        | a :: b :: post, _ => exact ⟨a, b, post, rfl⟩
      obtain ⟨a', b', post, d1⟩ := d1
      rw [d1] at hd
      simp only [List.cons_append, List.cons.injEq] at hd
      obtain ⟨rfl, rfl, hd⟩ := hd
      have hv : vs = vs.take k ++ (a' :: b' :: post) := by rw [← d1, List.take_append_drop]
      have : vs.eraseIdx (k + 1) = vs.take k ++ (a' :: post) := by
        conv_lhs => rw [hv]
        rw [List.eraseIdx_append_of_length_le (by rw [List.length_take]; omega)]
        have : k + 1 - (vs.take k).length = 1 := by rw [List.length_take]; omega
        rw [this]; rfl
      rw [this, ← hd]
      exact List.isRotated_append
    · have hkL : k + 1 = L := by omega
      rw [hkL, Nat.mod_self]
      have d1 : ∃ a', vs.drop k = [a'] := by
        have : (vs.drop k).length = 1 := by rw [List.length_drop]; omega
        exact List.length_eq_one_iff.1 this
      obtain ⟨a', d1⟩ := d1
      rw [d1] at hd
      simp only [List.cons_append, List.nil_append, List.cons.injEq] at hd
      obtain ⟨rfl, hd⟩ := hd
      have hv : vs = b :: c :: (rest ++ [a']) := by
        rw [← List.take_append_drop k vs, d1, hd]; rfl
      rw [hv]
      simp only [List.eraseIdx_cons_zero]
      exact List.isRotated_append (l := c :: rest) (l' := [a'])
  · have g : ∀ j (hj : j < 3), vtx ⟨vs.rotate k⟩ j = (a :: b :: c :: rest)[j]'(by simp; omega) := by
      intro j hj
      rw [vtx_of_lt (by simp only [List.length_rotate]; omega)]
      simp only [hr]
    rw [g 0 (by omega), g 1 (by omega), g 2 (by omega)] at h
    exact h

theorem pyGet_eq {vs : List Point} {j : ℤ} {n : ℕ} (h : (n : ℤ) = j ∨ (n : ℤ) = j + vs.length) (h1 : -(vs.length : ℤ) ≤ j)
    (h2 : j < vs.length) : pyGet vs j = vtx ⟨vs⟩ n := by
  unfold pyGet vtx vertexAt
  simp only
  split
  · rename_i hj
    have hn : (n : ℤ) = j + vs.length := by omega
    rw [Nat.mod_eq_of_lt (by omega)]
    congr 1
    omega
  · rename_i hj
    rcases h with h | h
    · rw [Nat.mod_eq_of_lt (by omega)]; congr 1; omega
    · have : n = j.toNat + vs.length := by omega
      rw [this, Nat.add_mod_right, Nat.mod_eq_of_lt (by omega)]

theorem pyDel_eq {vs : List Point} {j : ℤ} {n : ℕ} (h : (n : ℤ) = j ∨ (n : ℤ) = j + vs.length) (h1 : -(vs.length : ℤ) ≤ j)
    (h2 : j < vs.length) : pyDel vs j = vs.eraseIdx (n % vs.length) := by
  unfold pyDel
  split
  · rename_i hj
    have hn : (n : ℤ) = j + vs.length := by omega
    rw [Nat.mod_eq_of_lt (by omega)]
    congr 1
    omega
  · rename_i hj
    rcases h with h | h
    · rw [Nat.mod_eq_of_lt (by omega)]; congr 1; omega
    · have : n = j.toNat + vs.length := by omega
      rw [this, Nat.add_mod_right, Nat.mod_eq_of_lt (by omega)]

theorem DropsVertices.trans {vs ws us : List Point} (h : DropsVertices vs ws) (h' : DropsVertices ws us) :
    DropsVertices vs us := by
  induction h with
  | refl => exact h'
  | step h1 _ ih => exact .step h1 (ih h')

theorem shrinkFirstInner_drops {k : ℕ} (hk : 1 ≤ k) (fuel : ℕ) (vs : List Point) :
    DropsVertices vs (shrinkFirstInner k fuel vs) ∧ (shrinkFirstInner k fuel vs).Sublist vs := by
  induction fuel generalizing vs with
  | zero => exact ⟨.refl _, List.Sublist.refl _⟩
  | succ fuel ih =>
    simp only [shrinkFirstInner]
    split
    · rename_i h
      obtain ⟨h1, h2⟩ := h
      rw [orientation_col] at h2
      have hL : k < vs.length ∧ 2 < vs.length := ⟨(le_max_right _ _).trans_lt h1, (le_max_left _ _).trans_lt h1⟩
      rw [pyGet_eq (n := vs.length - k + 1) (by omega) (by omega) (by omega),
        pyGet_eq (n := vs.length - k + 2) (by omega) (by omega) (by omega),
        pyGet_eq (n := vs.length - k) (by omega) (by omega) (by omega), ← cross_rot] at h2
      have d := dropsVertex_of_vtx (by omega) h2
      rw [pyDel_eq (n := vs.length - k + 1) (by omega) (by omega) (by omega)]
      obtain ⟨i1, i2⟩ := ih (vs.eraseIdx ((vs.length - k + 1) % vs.length))
      exact ⟨.step d i1, i2.trans (List.eraseIdx_sublist _ _)⟩
    · exact ⟨.refl _, List.Sublist.refl _⟩

theorem shrinkFirst_drops (k : ℕ) (vs : List Point) :
    DropsVertices vs (shrinkFirst k vs) ∧ (shrinkFirst k vs).Sublist vs := by
  induction k generalizing vs with
  | zero => exact ⟨.refl _, List.Sublist.refl _⟩
  | succ k ih =>
    simp only [shrinkFirst]
    obtain ⟨i1, i2⟩ := shrinkFirstInner_drops (k := k + 1) (by omega) vs.length vs
    obtain ⟨j1, j2⟩ := ih (shrinkFirstInner (k + 1) vs.length vs)
    exact ⟨i1.trans j1, j2.trans i2⟩

theorem shrinkSecondInner_drops (index fuel : ℕ) (vs : List Point) :
    DropsVertices vs (shrinkSecondInner index fuel vs) ∧ (shrinkSecondInner index fuel vs).Sublist vs := by
  induction fuel generalizing vs with
  | zero => exact ⟨.refl _, List.Sublist.refl _⟩
  | succ fuel ih =>
    simp only [shrinkSecondInner]
    split
    · rename_i h
      obtain ⟨h1, h2⟩ := h
      rw [orientation_col] at h2
      have hL : index < vs.length ∧ 2 < vs.length := ⟨(le_max_right _ _).trans_lt h1, (le_max_left _ _).trans_lt h1⟩
      rw [pyGet_eq (n := vs.length + index - 1) (by omega) (by omega) (by omega),
        pyGet_eq (n := vs.length + index - 2) (by omega) (by omega) (by omega),
        pyGet_eq (n := vs.length + index) (by omega) (by omega) (by omega), cross_swap, neg_eq_zero] at h2
      have d := dropsVertex_of_vtx (vs := vs) (n := vs.length + index - 2) (by omega) (by
        rw [show vs.length + index - 2 + 1 = vs.length + index - 1 by omega,
          show vs.length + index - 2 + 2 = vs.length + index by omega]
        exact h2)
      rw [show vs.length + index - 2 + 1 = vs.length + index - 1 by omega] at d
      rw [pyDel_eq (n := vs.length + index - 1) (by omega) (by omega) (by omega)]
      obtain ⟨i1, i2⟩ := ih (vs.eraseIdx ((vs.length + index - 1) % vs.length))
      exact ⟨.step d i1, i2.trans (List.eraseIdx_sublist _ _)⟩
    · exact ⟨.refl _, List.Sublist.refl _⟩

theorem shrinkSecond_drops (fuel index : ℕ) (vs : List Point) :
    DropsVertices vs (shrinkSecond fuel index vs) ∧ (shrinkSecond fuel index vs).Sublist vs := by
  induction fuel generalizing index vs with
  | zero => exact ⟨.refl _, List.Sublist.refl _⟩
  | succ fuel ih =>
    simp only [shrinkSecond]
    split
    · obtain ⟨i1, i2⟩ := shrinkSecondInner_drops index vs.length vs
      obtain ⟨j1, j2⟩ := ih (index + 1) (shrinkSecondInner index vs.length vs)
      exact ⟨i1.trans j1, j2.trans i2⟩
    · exact ⟨.refl _, List.Sublist.refl _⟩

theorem shrinkCollinearVertices_drops (vs : List Point) :
    DropsVertices vs (shrinkCollinearVertices vs) ∧ (shrinkCollinearVertices vs).Sublist vs := by
  unfold shrinkCollinearVertices
  simp only
  obtain ⟨i1, i2⟩ := shrinkFirst_drops (vs.length - 1) vs
  obtain ⟨j1, j2⟩ := shrinkSecond_drops (shrinkFirst (vs.length - 1) vs).length 0 (shrinkFirst (vs.length - 1) vs)
  exact ⟨i1.trans j1, j2.trans i2⟩

end Clipping

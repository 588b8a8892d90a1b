import Verif.Lemmas.Shaped.Valid
import Verif.Lemmas.Region.Sided

/-!
# Borders and holes are told apart correctly
-/

namespace Clipping

open Sweep Darts

theorem inside_range_odd (f : ℕ → List Segment) (q : Point) (n : ℕ) :
    Inside ((List.range n).flatMap f) q ↔ Odd ((Finset.range n).filter fun j => Inside (f j) q).card := by
  induction n with
  | zero => simp [inside_nil]
  | succ n ih =>
    rw [List.range_succ, List.flatMap_append, inside_append, ih, List.flatMap_singleton, Finset.range_add_one,
      Finset.filter_insert]
    by_cases h : Inside (f n) q
    · rw [if_pos h, Finset.card_insert_of_notMem (by simp), Nat.odd_add_one]
      simp [h]
    · rw [if_neg h]
      simp [h]

namespace Selected

variable {h : Heap ShapedData} {events : List Ev} {S : Selected h events} {processed : ℕ → Bool} {m : Marks} {r : Relations}
  {contours : List Contour} {Rs : List (List ℕ)} {F : Finset ℕ} {ptr : ℕ → Option (ℕ × Bool)}

/-- The recorded event below a selected edge tells on which side of the edge the region with the selected edges is. -/
def AllParity (h : Heap ShapedData) (events : List Ev) : Prop :=
  ∀ i, Ev.left i ∈ events →
    ((h.lefts i).data.below = none → ¬ Inside (leftEdges h events) (h.mid i)) ∧
    ∀ b, (h.lefts i).data.below = some b → Ev.left b ∈ events →
      (Inside (leftEdges h events) (h.mid i) ↔ ¬ Inside (leftEdges h events) (h.mid b))

namespace TraceInv

theorem inside_loops (I : TraceInv S processed m r contours Rs F ptr) (hF : F = ∅) (q : Point) :
    Inside (leftEdges h events) q ↔ Odd (Traced₀.around S.darts Rs q).card := by
  subst hF
  rw [← (I.traced₀.sameEdges.trans (SameEdges.of_perm S.edges_perm)).inside_iff, inside_range_odd]
  rfl

/-- at the middle of an edge -/
theorem inside_at (I : TraceInv S processed m r contours Rs F ptr) (hF : F = ∅) {x b : ℕ} (hx : x < S.darts.n)
    (hb : ev h events x = .left b) {q : Point} (hq : S.darts.RightOf (Finset.range S.darts.n) x q) :
    Inside (leftEdges h events) (h.mid b) ↔ Odd (Traced₀.around S.darts Rs q).card := by
  rw [I.inside_loops hF]
  have : Traced₀.around S.darts Rs (h.mid b) = Traced₀.around S.darts Rs q := by
    have T := I.traced₀
    ext k
    rw [Traced₀.mem_around, Traced₀.mem_around]
    refine and_congr_right fun hk => ?_
    obtain ⟨m1, m2, m3⟩ := S.mid_inner hx hb
    exact (T.start.closed.inside_mid (T.loop hk) (fun _ hh => T.mem hk hh) (Finset.mem_range.2 hx) m3 m1 m2 hq).symm
  rw [this]

theorem around_right (I : TraceInv S processed m r contours Rs F ptr) {c x : ℕ} (hc : c < Rs.length) (hx : x ∈ nth Rs c)
    {z : Point} (hz : S.darts.RightOf (Finset.range S.darts.n) x z) : Traced₀.around S.darts Rs z = S.darts.anc Rs c := by
  ext k
  rw [Traced₀.mem_around]
  constructor
  · rintro ⟨a, b⟩
    exact (I.traced₀.right_iff hc hx hz a).1 b
  · intro hh
    have il : k < Rs.length := (Traced₀.anc_lt hh).trans hc
    exact ⟨il, (I.traced₀.right_iff hc hx hz il).2 hh⟩

theorem around_left (I : TraceInv S processed m r contours Rs F ptr) {c x : ℕ} (hc : c < Rs.length) (hx : x ∈ nth Rs c)
    {z : Point} (hz : S.darts.LeftOf (Finset.range S.darts.n) x z) :
    Traced₀.around S.darts Rs z = insert c (S.darts.anc Rs c) := by
  ext k
  rw [Traced₀.mem_around, Finset.mem_insert]
  constructor
  · rintro ⟨a, b⟩
    exact ((I.traced₀.left_iff hc hx hz a).1 b).symm
  · intro hh
    have il : k < Rs.length := by
      rcases hh with e | e
      · omega
      · exact (Traced₀.anc_lt e).trans hc
    exact ⟨il, (I.traced₀.left_iff hc hx hz il).2 hh.symm⟩

/-- Contours are internal if an odd number of contours is around them. -/
theorem internal_iff (I : TraceInv S processed m r contours Rs F ptr) (hF : F = ∅) (P : AllParity h events) (j : ℕ)
    (hj : j < Rs.length) : r.areInternal.getD j false = true ↔ Odd (S.darts.anc Rs j).card := by
  classical
  induction j using Nat.strong_induction_on with
  | _ j ih =>
    have T := I.traced₀
    obtain ⟨d, i, hd, hev, hnone, hsome⟩ := I.link j hj
    have hdR : d ∈ nth Rs j := List.mem_of_mem_head? hd
    have ld := T.lt hj hdR
    have him : Ev.left i ∈ events := by
      have := ev_mem (h := h) (events := events) ld
      rwa [hev] at this
    obtain ⟨y, hy⟩ := T.start.closed.exists_right ld
    have atj := I.inside_at hF ld hev hy
    rw [I.around_right hj hdR hy] at atj
    have self : ∀ c, c ∉ S.darts.anc Rs c := fun c hh => lt_irrefl _ (mem_anc.1 hh).1
    cases hb : (h.lefts i).data.below with
    | none =>
      have hi := I.rel.base j hj (hnone hb)
      rw [← atj, hi]
      simp [(P i him).1 hb]
    | some b =>
      obtain ⟨c, hc, x, hx, hevx, hor⟩ := hsome b hb
      have hcl : c < Rs.length := hc.trans hj
      have hbm : Ev.left b ∈ events := by
        have := ev_mem (h := h) (events := events) hx
        rwa [hevx] at this
      obtain ⟨z, hz⟩ := T.start.closed.exists_right hx
      have atb := I.inside_at hF hx hevx hz
      have par := (P i him).2 b hb hbm
      rw [atj, atb] at par
      rw [par]
      have ic := ih c hc hcl
      rcases hor with ⟨hp, h1⟩ | ⟨hp, h1⟩
      · rw [I.around_right hcl h1 hz, I.rel.lower j hj c hp, ← ic]
        simp
      · have hz' : S.darts.LeftOf (Finset.range S.darts.n) (S.darts.opp x) z := by
          apply right_opp (S.darts.opp_lt x hx)
          rw [S.darts.opp_opp x hx]; exact hz
        rw [I.around_left hcl h1 hz', I.rel.upper j hj c hp, Finset.card_insert_of_notMem (self c), Nat.odd_add_one, ← ic]
        simp

/-- a point of one contour only -/
theorem inside_on (I : TraceInv S processed m r contours Rs F ptr) (hF : F = ∅) {j : ℕ} (hj : j < Rs.length) {q : Point}
    (hq : q ∈ segsPts ((nth Rs j).map S.darts.seg))
    (off : ∀ k < Rs.length, k ≠ j → q ∉ segsPts ((nth Rs k).map S.darts.seg)) :
    Inside (leftEdges h events) q ↔ (Inside ((nth Rs j).map S.darts.seg) q ↔ ¬ Odd (S.darts.anc Rs j).card) := by
  classical
  have T := I.traced₀
  obtain ⟨g, hg, hqg⟩ := hq
  obtain ⟨y, hy, rfl⟩ := List.mem_map.1 hg
  obtain ⟨z, hz⟩ := T.start.closed.exists_left (T.lt hj hy)
  have self : j ∉ S.darts.anc Rs j := fun hh => lt_irrefl _ (mem_anc.1 hh).1
  have cell : ∀ k < Rs.length, k ≠ j → (Inside ((nth Rs k).map S.darts.seg) q ↔ k ∈ S.darts.anc Rs j) := by
    intro k hk hkj
    have dis := T.disjoint hj hk (Ne.symm hkj) hy
    rw [(side_of_edge T.start.closed (fun _ hh => T.mem hk hh) (T.mem hj hy) dis.1 dis.2 hqg (off k hk hkj) hz).inside_iff
      (T.loop hk).proper (T.loop hk).even]
    have := T.left_iff hj hy hz hk
    unfold InC at this
    rw [this]
    simp [hkj]
  rw [I.inside_loops hF]
  by_cases hin : Inside ((nth Rs j).map S.darts.seg) q
  · have : Traced₀.around S.darts Rs q = insert j (S.darts.anc Rs j) := by
      ext k
      rw [Traced₀.mem_around, Finset.mem_insert]
      by_cases hkj : k = j
      · subst hkj; simp [hj, hin]
      · constructor
        · rintro ⟨h1, h2⟩
          exact Or.inr ((cell k h1 hkj).1 h2)
        · rintro (h1 | h1)
          · exact absurd h1 hkj
          · have hk := (Traced₀.anc_lt h1).trans hj
            exact ⟨hk, (cell k hk hkj).2 h1⟩
    rw [this, Finset.card_insert_of_notMem self, Nat.odd_add_one, iff_true_left hin]
  · have : Traced₀.around S.darts Rs q = S.darts.anc Rs j := by
      ext k
      rw [Traced₀.mem_around]
      by_cases hkj : k = j
      · subst hkj; simp [hj, hin, self]
      · constructor
        · rintro ⟨h1, h2⟩
          exact (cell k h1 hkj).1 h2
        · intro h1
          have hk := (Traced₀.anc_lt h1).trans hj
          exact ⟨hk, (cell k hk hkj).2 h1⟩
    rw [this, iff_false_left hin, not_not]

theorem sided (I : TraceInv S processed m r contours Rs F ptr) (hF : F = ∅) (P : AllParity h events) :
    Sided (assemblePolygons r contours) := by
  have O := I.outline hF
  have asm := I.rel.assemble I.len
  have perm := I.rel.edges_perm I.len
  have no := (O.noOverlap.perm perm).nodup
  have key : ∀ j < Rs.length, ∀ e ∈ (contours.getD j ⟨[]⟩).edges, ∀ q ∈ e.pts,
      (∀ e' ∈ (assemblePolygons r contours).flatMap Polygon.edges, q ∈ e'.pts → e' = e) →
      (Inside ((assemblePolygons r contours).flatMap Polygon.edges) q ↔
        (Inside (contours.getD j ⟨[]⟩).edges q ↔ r.areInternal.getD j false = false)) := by
    intro j hj e he q hq only
    obtain ⟨c1, c2⟩ := I.contour_same hj
    rw [O.inside, I.inside_on hF hj (c1 ▸ ⟨e, he, hq⟩) ?_, c2, ← I.internal_iff hF P j hj, Bool.not_eq_true]
    intro k hk hkj hh
    rw [← (I.contour_same hk).1] at hh
    obtain ⟨e', he', hq'⟩ := hh
    have heq := only e' (perm.mem_iff.2 (List.mem_flatMap.2 ⟨k, List.mem_range.2 hk, he'⟩)) hq'
    subst heq
    rw [List.nodup_flatMap] at no
    haveI : Std.Symm (Function.onFun List.Disjoint fun j => (contours.getD j ⟨[]⟩).edges) := ⟨fun a b h => h.symm⟩
    exact no.2.forall (List.mem_range.2 hj) (List.mem_range.2 hk) (Ne.symm hkj) he he'
  constructor
  · intro p hp e he q hq _ only
    rw [asm] at hp
    obtain ⟨i, hi, rfl⟩ := List.mem_map.1 hp
    obtain ⟨h1, h2⟩ := RelOk.mem_borders.1 hi
    rw [key i h1 e he q hq only, iff_true_right h2]
    exact Iff.rfl
  · intro p hp c hc e he q hq _ only
    rw [asm] at hp
    obtain ⟨i, hi, rfl⟩ := List.mem_map.1 hp
    obtain ⟨h1, h2⟩ := RelOk.mem_borders.1 hi
    obtain ⟨j, hj, rfl⟩ := List.mem_map.1 hc
    obtain ⟨j1, j2⟩ := (I.rel.mem_holes h1).1 hj
    have hint := (I.rel.parent_external j1 j2).2.2
    rw [key j j1 e he q hq only, iff_false_right (Bool.eq_false_iff.not.2 (not_not.2 hint))]

/-- Holes are within borders. -/
theorem held (I : TraceInv S processed m r contours Rs F ptr) (hF : F = ∅) (P : AllParity h events) :
    ∀ p ∈ assemblePolygons r contours, ∀ c ∈ p.holes, ∃ p' ∈ assemblePolygons r contours,
      regionPts c.edges ⊆ regionPts p'.border.edges := by
  have asm := I.rel.assemble I.len
  rw [asm]
  intro p hp c hc
  obtain ⟨i, hi, rfl⟩ := List.mem_map.1 hp
  obtain ⟨h1, h2⟩ := RelOk.mem_borders.1 hi
  obtain ⟨j, hj, rfl⟩ := List.mem_map.1 hc
  obtain ⟨j1, j2⟩ := (I.rel.mem_holes h1).1 hj
  have hint := (I.rel.parent_external j1 j2).2.2
  have odd := (I.internal_iff hF P j j1).1 hint
  obtain ⟨k, hk, least⟩ := (S.darts.anc Rs j).exists_min_image id (Finset.card_pos.1 odd.pos)
  have kl : k < Rs.length := (Traced₀.anc_lt hk).trans j1
  have none : S.darts.anc Rs k = ∅ := by
    rw [Finset.eq_empty_iff_forall_notMem]
    intro l hl
    have := least l (I.traced₀.anc_trans j1 hl hk)
    have := Traced₀.anc_lt hl
    simp only [id] at *
    omega
  have ext : r.areInternal.getD k false = false := by
    rw [← Bool.not_eq_true, I.internal_iff hF P k kl, none]
    simp
  refine ⟨_, List.mem_map.2 ⟨k, RelOk.mem_borders.2 ⟨kl, ext⟩, rfl⟩, ?_⟩
  obtain ⟨b1, b2⟩ := I.contour_same kl
  obtain ⟨c1, c2⟩ := I.contour_same j1
  change regionPts (contours.getD j ⟨[]⟩).edges ⊆ regionPts (contours.getD k ⟨[]⟩).edges
  rw [region_same b1 b2, region_same c1 c2]
  have hw := (mem_anc.1 hk).2
  intro q hq
  by_cases q1 : q ∈ segsPts ((nth Rs k).map S.darts.seg)
  · exact Or.inl q1
  · right
    by_cases q2 : q ∈ segsPts ((nth Rs j).map S.darts.seg)
    · exact hw.edge q q2 q1
    · exact hw.inside q q1 q2 (Or.resolve_left hq q2)

end TraceInv

end Selected

/-- Borders and holes of the result are on the right sides. -/
theorem eventsToPolygons_sided {h : Heap ShapedData} {events : List Ev} (S : Selected h (events.filter (fromResult h)))
    (B : Selected.BelowOk h (events.filter (fromResult h))) (P : Selected.AllParity h (events.filter (fromResult h))) :
    ∃ ps, eventsToPolygons h events = .ok ps ∧ Sided ps ∧
      ∀ p ∈ ps, ∀ c ∈ p.holes, ∃ p' ∈ ps, regionPts c.edges ⊆ regionPts p'.border.edges := by
  obtain ⟨r, contours, processed, m, Rs, F, ptr, h1, h2, h3⟩ := S.tracing B
  refine ⟨assemblePolygons r contours, ?_, h2.sided h3 P, h2.held h3 P⟩
  unfold eventsToPolygons
  dsimp only
  rw [h1]

end Clipping

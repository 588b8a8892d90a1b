import Verif.Lemmas.Region.OverlayDegree

/-!
# The edges of a combination of two regions are its boundary
-/

namespace Clipping

open Sweep

/-- Both the inside and the outside of the combination of two regions come arbitrarily close to `m`. -/
def SeparatesProp (A B : List Segment) (op : Prop → Prop → Prop) (m : Point) : Prop :=
  ∀ δ > 0, ∃ q q', Near δ m q ∧ Near δ m q' ∧ q ∉ segsPts (A ++ B) ∧ q' ∉ segsPts (A ++ B) ∧
    op (Inside A q) (Inside B q) ∧ ¬ op (Inside A q') (Inside B q')

theorem collinear_of_common {s t : Segment} {p q : Point} (hpq : p ≠ q) (p1 : p ∈ s.pts)
    (q1 : q ∈ s.pts) (p2 : p ∈ t.pts) (q2 : q ∈ t.pts) {r : Point} (hr : r ∈ t.pts) : cross s.start s.stop r = 0 := by
  obtain ⟨a, -, -, ax, ay⟩ := p1
  obtain ⟨b, -, -, bx, bY⟩ := q1
  obtain ⟨c, -, -, cx, cy⟩ := p2
  obtain ⟨d, -, -, dx, dy⟩ := q2
  obtain ⟨u, -, -, ux, uy⟩ := hr
  have hcd : d - c ≠ 0 := by
    intro h0
    apply hpq
    have : d = c := by linarith
    subst this
    exact Point.ext' (cx.trans dx.symm) (cy.trans dy.symm)
  have key : (d - c) * cross s.start s.stop r = 0 := by
    unfold cross
    have e1 : t.start.x + c * (t.stop.x - t.start.x) = s.start.x + a * (s.stop.x - s.start.x) := cx.symm.trans ax
    have e2 : t.start.y + c * (t.stop.y - t.start.y) = s.start.y + a * (s.stop.y - s.start.y) := cy.symm.trans ay
    have e3 : t.start.x + d * (t.stop.x - t.start.x) = s.start.x + b * (s.stop.x - s.start.x) := dx.symm.trans bx
    have e4 : t.start.y + d * (t.stop.y - t.start.y) = s.start.y + b * (s.stop.y - s.start.y) := dy.symm.trans bY
    rw [ux, uy]
    linear_combination (s.stop.x - s.start.x) * ((d - u) * e2 + (u - c) * e4) -
      (s.stop.y - s.start.y) * ((d - u) * e1 + (u - c) * e3)
  exact (mul_eq_zero.1 key).resolve_left hcd

theorem Overlay.separates {A B T : List Segment} {op : Prop → Prop → Prop} (ov : Overlay A B T op)
    (he : EndsOnly T) {m : Point} (hv : ¬ Vertex (A ++ B) m) : m ∈ segsPts T ↔ SeparatesProp A B op m := by
  classical
  constructor
  · rintro ⟨t, ht, hmt⟩ δ hδ
    have hend : ¬ t.IsEnd m := by
      rintro (rfl | rfl)
      exacts [hv (ov.ends t ht).1, hv (ov.ends t ht).2]
    have perm := List.perm_cons_erase ht
    have he' : EndsOnly (t :: T.erase t) := (perm.pairwise_iff (fun {a b} h q h1 h2 => (h q h2 h1).symm)).1 he
    have off : m ∉ segsPts (T.erase t) := by
      rintro ⟨t', ht', hm'⟩
      exact hend ((List.pairwise_cons.1 he').1 t' ht' m hmt hm').1
    have hp : ∀ s ∈ t :: T.erase t, s.Proper := fun s hs => ov.proper s (perm.mem_iff.2 hs)
    have hd : ∀ q, Even (degree (t :: T.erase t) q) := fun q => by
      rw [← degree_perm perm]; exact ov.even q
    obtain ⟨δ₁, δ₁pos, h1⟩ := local_sides hp hd hmt hend off
    -- all edges through `m` are on the line of `t`
    have hpt := ov.proper t ht
    have line : ∃ δ₂ > 0, ∀ q, Near δ₂ m q → cross t.lo t.hi q ≠ 0 → q ∉ segsPts (A ++ B) := by
      have hpAB : ∀ e ∈ A ++ B, e.Proper := by
        intro e he
        rcases List.mem_append.1 he with h | h
        · exact ov.hA.noOverlap.1 e h
        · exact ov.hB.noOverlap.1 e h
      obtain ⟨δ₂, δ₂pos, h2⟩ := exists_near_off_all (E := (A ++ B).filter fun e => decide (m ∉ e.pts))
        (fun e he => hpAB e (List.mem_filter.1 he).1) (m := m) (by
          rintro ⟨e, he, hm⟩
          have := (List.mem_filter.1 he).2
          rw [decide_eq_true_eq] at this
          exact this hm)
      refine ⟨δ₂, δ₂pos, fun q hq hc => ?_⟩
      rintro ⟨e, he, hqe⟩
      by_cases hme : m ∈ e.pts
      · apply hc
        obtain ⟨e₀, he₀, hsub⟩ := ov.sub t ht
        have : ∃ p ∈ e.pts, p ∈ e₀.pts ∧ p ≠ m := by
          by_contra hcon
          push Not at hcon
          refine hv (Or.inr ⟨e, he, e₀, he₀, ?_⟩)
          ext p
          constructor
          · rintro ⟨h1, h2⟩; exact hcon p h1 h2
          · rintro rfl; exact ⟨hme, hsub hmt⟩
        obtain ⟨p, hp1, hp2, hpm⟩ := this
        have g : ∀ {r}, r ∈ e₀.pts → cross e.start e.stop r = 0 :=
          collinear_of_common hpm hp1 hme hp2 (hsub hmt)
        -- `t` lies on the line of `e`
        have c1 := g (hsub t.lo_mem)
        have c2 := g (hsub t.hi_mem)
        have c3 : cross e.start e.stop q = 0 := collinear_of_common hpm hp1 hme hp1 hme hqe
        have hne : e.start ≠ e.stop := hpAB e he
        have hne' : e.stop.x - e.start.x ≠ 0 ∨ e.stop.y - e.start.y ≠ 0 := by
          by_contra hcon
          push Not at hcon
          exact hne (Point.ext' (by linarith [hcon.1]) (by linarith [hcon.2]))
        unfold cross at c1 c2 c3 ⊢
        rcases hne' with h | h
        · refine (mul_eq_zero.1 ?_).resolve_left h
          linear_combination (t.hi.x - t.lo.x) * (c3 - c1) - (q.x - t.lo.x) * (c2 - c1)
        · refine (mul_eq_zero.1 ?_).resolve_left h
          linear_combination (t.hi.y - t.lo.y) * (c3 - c1) - (q.y - t.lo.y) * (c2 - c1)
      · exact h2 q hq ⟨e, List.mem_filter.2 ⟨he, by simpa using hme⟩, hqe⟩
    obtain ⟨δ₂, δ₂pos, h2⟩ := line
    set ε := min δ (min δ₁ δ₂) with hε
    have ε0 : 0 < ε := lt_min hδ (lt_min δ₁pos δ₂pos)
    have hproper : (Segment.mk t.lo t.hi).Proper := (lo_lt_hi hpt).ne
    have hproper' : (Segment.mk t.hi t.lo).Proper := (lo_lt_hi hpt).ne'
    have hm1 : m ∈ (Segment.mk t.lo t.hi).pts := mem_pts_lo_hi.2 hmt
    have hm2 : m ∈ (Segment.mk t.hi t.lo).pts := by rw [Segment.pts_swap]; exact hm1
    obtain ⟨q, hq, cq⟩ := exists_left_near hproper hm1 ε0
    obtain ⟨r, hr, cr⟩ := exists_left_near hproper' hm2 ε0
    simp only at cq cr
    have cr' : cross t.lo t.hi r < 0 := by
      have : cross t.hi t.lo r = - cross t.lo t.hi r := by unfold cross; ring
      linarith
    have nδ : ∀ {q}, Near ε m q → Near δ m q ∧ Near δ₁ m q ∧ Near δ₂ m q := fun h =>
      ⟨h.mono (min_le_left _ _), h.mono ((min_le_right _ _).trans (min_le_left _ _)),
        h.mono ((min_le_right _ _).trans (min_le_right _ _))⟩
    have offq := h2 q (nδ hq).2.2 cq.ne'
    have offr := h2 r (nδ hr).2.2 cr'.ne
    have iq := (h1 q (nδ hq).2.1).2.1 cq
    have ir := (h1 r (nδ hr).2.1).2.2 cr'
    rw [← inside_perm perm, ← inside_perm perm] at iq ir
    have sp : ∀ {q}, q ∉ segsPts (A ++ B) → q ∉ segsPts A ∧ q ∉ segsPts B := by
      intro q hq
      rw [segsPts_append] at hq
      exact ⟨fun h => hq (Or.inl h), fun h => hq (Or.inr h)⟩
    rw [ov.inside (sp offq).1 (sp offq).2] at iq
    rw [ov.inside (sp offr).1 (sp offr).2] at ir
    by_cases hin : Inside T m
    · exact ⟨r, q, (nδ hr).1, (nδ hq).1, offr, offq, ir.2 hin, fun h => iq.1 h hin⟩
    · exact ⟨q, r, (nδ hq).1, (nδ hr).1, offq, offr, iq.2 hin, fun h => hin (ir.1 h)⟩
  · intro h
    by_contra hm
    obtain ⟨δ, δ0, hδ⟩ := exists_near_off_all ov.proper hm
    obtain ⟨q, q', hq, hq', o, o', h1, h2⟩ := h δ δ0
    have sp : ∀ {q}, q ∉ segsPts (A ++ B) → q ∉ segsPts A ∧ q ∉ segsPts B := by
      intro q hq
      rw [segsPts_append] at hq
      exact ⟨fun h => hq (Or.inl h), fun h => hq (Or.inr h)⟩
    have c : ∀ {q}, Near δ m q → (Inside T m ↔ Inside T q) := fun {q} hq =>
      inside_const ov.proper ov.even (s := ⟨m, q⟩) fun r hr => hδ r (hq.path r hr)
    rw [← ov.inside (sp o).1 (sp o).2, ← c hq] at h1
    rw [← ov.inside (sp o').1 (sp o').2, ← c hq'] at h2
    exact h2 h1

end Clipping

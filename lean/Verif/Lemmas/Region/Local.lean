import Verif.Lemmas.Region.Polygon

/-!
# The even-odd rule on both sides of an edge
-/

namespace Clipping

open Sweep

theorem Near.mono {δ δ' : ℚ} {m q : Point} (h : Near δ m q) (hle : δ ≤ δ') : Near δ' m q :=
  ⟨h.1.trans_le hle, h.2.trans_le hle⟩

/-- A neighbourhood is convex. -/
theorem Near.path {δ : ℚ} {m q : Point} (h : Near δ m q) : ∀ r ∈ (Segment.mk m q).pts, Near δ m r := by
  rintro r ⟨t, t0, t1, tx, ty⟩
  simp only at tx ty
  have g : ∀ a b : ℚ, |b - a| < δ → |a + t * (b - a) - a| < δ := by
    intro a b hab
    rw [show a + t * (b - a) - a = t * (b - a) by ring, abs_mul, abs_of_nonneg t0]
    nlinarith [abs_nonneg (b - a)]
  exact ⟨by rw [tx]; exact g _ _ h.1, by rw [ty]; exact g _ _ h.2⟩

/-- A point which is not on a segment has a neighbourhood without points of the segment. -/
theorem exists_near_off {s : Segment} (hs : s.Proper) {m : Point} (hm : m ∉ s.pts) :
    ∃ δ > 0, ∀ q, Near δ m q → q ∉ s.pts := by
  rw [Segment.mem_iff hs] at hm
  have lt := lo_lt_hi hs
  set a := s.lo with ha
  set b := s.hi with hb
  by_cases hc : cross a b m = 0
  · have hm' : m < a ∨ b < m := by
      by_contra hn
      push Not at hn
      exact hm ⟨hc, hn.1, hn.2⟩
    -- strictly outside in one of the coordinates
    have key : (m.x < a.x ∨ b.x < m.x) ∨ (a.x = b.x ∧ (m.y < a.y ∨ b.y < m.y)) := by
      rcases hm' with h | h
      · rw [Point.lt_def] at h
        rcases h with h | ⟨h1, h2⟩
        · exact Or.inl (Or.inl h)
        · right
          rw [Point.lt_def] at lt
          rcases lt with lt | ⟨lt, -⟩
          · exfalso
            unfold cross at hc
            rw [h1] at hc
            nlinarith
          · exact ⟨lt, Or.inl h2⟩
      · rw [Point.lt_def] at h
        rcases h with h | ⟨h1, h2⟩
        · exact Or.inl (Or.inr h)
        · right
          rw [Point.lt_def] at lt
          rcases lt with lt | ⟨lt, -⟩
          · exfalso
            unfold cross at hc
            rw [← h1] at hc
            nlinarith
          · exact ⟨lt, Or.inr h2⟩
    rcases key with (h | h) | ⟨hx, h | h⟩
    · refine ⟨a.x - m.x, by linarith, ?_⟩
      intro q hq hqs
      have hlo := Segment.lo_le_of_mem hqs
      rw [Point.le_def] at hlo
      have h1 := (abs_lt.1 hq.1).2
      rcases hlo with h' | h'
      · linarith
      · linarith [h'.1]
    · refine ⟨m.x - b.x, by linarith, ?_⟩
      intro q hq hqs
      have hhi := Segment.le_hi_of_mem hqs
      rw [Point.le_def] at hhi
      have h1 := (abs_lt.1 hq.1).1
      rcases hhi with h' | h'
      · linarith
      · linarith [h'.1]
    · refine ⟨a.y - m.y, by linarith, ?_⟩
      intro q hq hqs
      have hlo := Segment.lo_le_of_mem hqs
      have hhi := Segment.le_hi_of_mem hqs
      rw [Point.le_def] at hlo hhi
      have h1 := (abs_lt.1 hq.2).2
      rcases hlo with h' | h'
      · rcases hhi with h'' | h''
        · linarith
        · linarith [h''.1]
      · linarith [h'.2]
    · refine ⟨m.y - b.y, by linarith, ?_⟩
      intro q hq hqs
      have hlo := Segment.lo_le_of_mem hqs
      have hhi := Segment.le_hi_of_mem hqs
      rw [Point.le_def] at hlo hhi
      have h1 := (abs_lt.1 hq.2).1
      rcases hhi with h' | h'
      · rcases hlo with h'' | h''
        · linarith
        · linarith [h''.1]
      · linarith [h'.2]
  · -- off the line
    set K := |b.x - a.x| + |b.y - a.y| + 1 with hK
    have K0 : 0 < K := by positivity
    refine ⟨|cross a b m| / K, div_pos (abs_pos.2 hc) K0, ?_⟩
    intro q hq hqs
    have h0 : cross a b q = 0 := ((Segment.mem_iff hs).1 hqs).1
    have e : cross a b m = (b.y - a.y) * (q.x - m.x) - (b.x - a.x) * (q.y - m.y) := by
      unfold cross at h0 ⊢
      linarith
    have h1 : |cross a b m| ≤ |b.y - a.y| * |q.x - m.x| + |b.x - a.x| * |q.y - m.y| := by
      rw [e, ← abs_mul, ← abs_mul]
      exact abs_sub _ _
    set d := |cross a b m| / K with hd
    have hdK : d * K = |cross a b m| := div_mul_cancel₀ _ K0.ne'
    have hd0 : 0 < d := div_pos (abs_pos.2 hc) K0
    have h2 : |b.y - a.y| * |q.x - m.x| ≤ |b.y - a.y| * d := mul_le_mul_of_nonneg_left hq.1.le (abs_nonneg _)
    have h3 : |b.x - a.x| * |q.y - m.y| ≤ |b.x - a.x| * d := mul_le_mul_of_nonneg_left hq.2.le (abs_nonneg _)
    rw [hK] at hdK
    nlinarith

theorem exists_near_off_all {E : List Segment} (hp : ∀ e ∈ E, e.Proper) {m : Point} (hm : m ∉ segsPts E) :
    ∃ δ > 0, ∀ q, Near δ m q → q ∉ segsPts E := by
  induction E with
  | nil => exact ⟨1, by norm_num, fun q _ => by rw [segsPts_nil]; exact Set.notMem_empty q⟩
  | cons e E ih =>
    have h1 : m ∉ e.pts := fun h => hm ⟨e, by simp, h⟩
    have h2 : m ∉ segsPts E := fun ⟨s, hs, h⟩ => hm ⟨s, by simp [hs], h⟩
    obtain ⟨d1, p1, g1⟩ := exists_near_off (hp e (by simp)) h1
    obtain ⟨d2, p2, g2⟩ := ih (fun s hs => hp s (by simp [hs])) h2
    refine ⟨min d1 d2, lt_min p1 p2, ?_⟩
    rintro q hq ⟨s, hs, h⟩
    rcases List.mem_cons.1 hs with rfl | hs
    · exact g1 q (hq.mono (min_le_left _ _)) h
    · exact g2 q (hq.mono (min_le_right _ _)) ⟨s, hs, h⟩

/-- Near an inner point `m` of one edge, which is on no other edge, the parity on the edge and below it is that
of `m`, and the parity above it is the other one. -/
theorem local_sides {E : List Segment} {e : Segment} (hp : ∀ s ∈ e :: E, s.Proper)
    (hd : ∀ q, Even (degree (e :: E) q)) {m : Point} (hm : m ∈ e.pts) (hi : ¬ e.IsEnd m) (off : m ∉ segsPts E) :
    ∃ δ > 0, ∀ q, Near δ m q → q ∉ segsPts E ∧
      (0 < cross e.lo e.hi q → (Inside (e :: E) q ↔ ¬ Inside (e :: E) m)) ∧
      (cross e.lo e.hi q < 0 → (Inside (e :: E) q ↔ Inside (e :: E) m)) := by
  obtain ⟨δ₀, δ₀pos, hoff⟩ := exists_near_off_all (fun s hs => hp s (by simp [hs])) off
  have he := hp e (by simp)
  have lt := lo_lt_hi he
  have hm' := (Segment.mem_iff he).1 hm
  rw [Segment.isEnd_iff] at hi
  push Not at hi
  have l1 := lt_of_le_of_ne hm'.2.1 (Ne.symm hi.1)
  have l2 := lt_of_le_of_ne hm'.2.2 hi.2
  set a := e.lo with ha
  set b := e.hi with hb
  -- the neighbourhood
  obtain ⟨δ, δpos, hle, hx⟩ : ∃ δ > 0, δ ≤ δ₀ ∧ (a.x ≠ b.x → δ ≤ m.x - a.x ∧ δ ≤ b.x - m.x) := by
    by_cases hab : a.x = b.x
    · exact ⟨δ₀, δ₀pos, le_refl _, fun h => absurd hab h⟩
    · have hab' : a.x < b.x := by
        rw [Point.lt_def] at lt; rcases lt with h | h; exacts [h, absurd h.1 hab]
      have hc := hm'.1
      have m1 : a.x < m.x := by
        rw [Point.lt_def] at l1
        rcases l1 with h | ⟨h, h'⟩
        · exact h
        · exfalso; unfold cross at hc; rw [← h] at hc; nlinarith
      have m2 : m.x < b.x := by
        rw [Point.lt_def] at l2
        rcases l2 with h | ⟨h, h'⟩
        · exact h
        · exfalso; unfold cross at hc; rw [h] at hc; nlinarith
      refine ⟨min δ₀ (min (m.x - a.x) (b.x - m.x)), lt_min δ₀pos (lt_min (by linarith) (by linarith)),
        min_le_left _ _, fun _ => ⟨(min_le_right _ _).trans (min_le_left _ _),
          (min_le_right _ _).trans (min_le_right _ _)⟩⟩
  refine ⟨δ, δpos, ?_⟩
  intro q hq
  have main : cross a b q ≠ 0 → ind (Inside (e :: E) q) = ind (Inside (e :: E) m) + ind (0 < cross a b q) := by
    intro hcq
    have hne : (Segment.mk m q).Proper := by
      intro h
      have h : m = q := h
      rw [← h] at hcq
      exact hcq hm'.1
    have ch := inside_change (E := E) (fun s hs => hp s (by simp [hs])) hne fun r hr => hoff r ((hq.path r hr).mono hle)
    set lo := (Segment.mk m q).lo with hlo
    set hi := (Segment.mk m q).hi with hhi
    have se := sum_ends_list hd (fun z => lo < z ∧ z ≤ hi ∧ cross lo hi z < 0)
    rw [List.map_cons, List.sum_cons, ← ch, ← ends_lo_hi (fun z => lo < z ∧ z ≤ hi ∧ cross lo hi z < 0) e] at se
    have inE : ind (Inside E lo) + ind (Inside E hi) = ind (Inside E m) + ind (Inside E q) := by
      rcases Segment.lo_hi_cases ⟨m, q⟩ with ⟨h1, h2, -⟩ | ⟨h1, h2, -⟩
      · rw [hlo, hhi, h1, h2]
      · rw [hlo, hhi, h1, h2, add_comm]
    rw [inE, ← ha, ← hb] at se
    have bm : ¬ IsBelow e m := fun h => absurd h.2.2 (by rw [← ha, ← hb, hm'.1]; exact lt_irrefl _)
    have i1 : ind (Inside (e :: E) m) = ind (Inside E m) := by
      rw [inside_sum, inside_sum, List.map_cons, List.sum_cons, ind_neg bm, zero_add]
    have i2 : ind (Inside (e :: E) q) = ind (IsBelow e q) + ind (Inside E q) := by
      rw [inside_sum, inside_sum, List.map_cons, List.sum_cons]
    have key : ind (IsBelow e q) + (ind (lo < a ∧ a ≤ hi ∧ cross lo hi a < 0) +
        ind (lo < b ∧ b ≤ hi ∧ cross lo hi b < 0)) = ind (0 < cross a b q) := by
      by_cases hab : a.x = b.x
      · -- a vertical edge
        have hy : a.y < b.y := by
          rw [Point.lt_def] at lt; rcases lt with h | h; exacts [absurd h (by linarith), h.2]
        have mx : m.x = a.x := by
          have hc := hm'.1
          unfold cross at hc
          rw [← hab] at hc
          have : (b.y - a.y) * (m.x - a.x) = 0 := by linarith
          rcases mul_eq_zero.1 this with h | h <;> linarith
        have ym1 : a.y < m.y := by
          rw [Point.lt_def] at l1; rcases l1 with h | h; exacts [absurd h (by linarith), h.2]
        have ym2 : m.y < b.y := by
          rw [Point.lt_def] at l2; rcases l2 with h | h; exacts [absurd h (by linarith), h.2]
        have nb : ¬ IsBelow e q := by
          rintro ⟨h1, h2, -⟩
          rw [← ha] at h1; rw [← hb] at h2
          linarith
        have cq : cross a b q = (b.y - a.y) * (a.x - q.x) := by unfold cross; rw [hab]; ring
        have dy : 0 < b.y - a.y := by linarith
        rw [ind_neg nb, zero_add]
        rcases lt_trichotomy q.x a.x with h | h | h
        · have qm : q < m := by rw [Point.lt_def]; left; linarith
          have e1 : lo = q := min_eq_right qm.le
          have e2 : hi = m := max_eq_left qm.le
          rw [e1, e2, ind_pos (P := 0 < cross a b q), ind_pos (P := q < a ∧ _), ind_neg (P := q < b ∧ _), add_zero]
          · exact fun hh => absurd hh.2.1 (not_le.2 l2)
          · refine ⟨by rw [Point.lt_def]; exact Or.inl h, l1.le, ?_⟩
            unfold cross; rw [mx]; nlinarith
          · rw [cq]; exact mul_pos dy (by linarith)
        · exact absurd (by rw [cq, h, sub_self, mul_zero]) hcq
        · have qm : m < q := by rw [Point.lt_def]; left; linarith
          have e1 : lo = m := min_eq_left qm.le
          have e2 : hi = q := max_eq_right qm.le
          rw [e1, e2, ind_neg (P := 0 < cross a b q), ind_neg (P := m < a ∧ _), ind_neg (P := m < b ∧ _), add_zero]
          · rintro ⟨-, -, hh⟩
            unfold cross at hh
            rw [← hab, ← mx] at hh
            nlinarith
          · exact fun hh => absurd hh.1 l1.asymm
          · rw [cq]; exact not_lt.2 (mul_nonpos_of_nonneg_of_nonpos dy.le (by linarith))
      · obtain ⟨x1, x2⟩ := hx hab
        obtain ⟨q1, q2⟩ := abs_lt.1 hq.1
        have aq : a.x < q.x := by linarith
        have qb : q.x < b.x := by linarith
        have aq' : a < q := by rw [Point.lt_def]; exact Or.inl aq
        have qb' : q < b := by rw [Point.lt_def]; exact Or.inl qb
        have e1 : ¬ lo < a := not_lt.2 (le_min l1.le aq'.le)
        have e2 : ¬ b ≤ hi := not_le.2 (max_lt l2 qb')
        rw [ind_neg (P := lo < a ∧ _) (fun h => e1 h.1), ind_neg (P := lo < b ∧ _) (fun h => e2 h.2.1), add_zero,
          add_zero]
        apply ind_congr
        unfold IsBelow
        rw [← ha, ← hb]
        exact ⟨fun h => h.2.2, fun h => ⟨aq.le, qb, h⟩⟩
    have dbl : ∀ z : ZMod 2, z + z = 0 := CharTwo.add_self_eq_zero
    have k1 := dbl (ind (Inside E m))
    have k2 := dbl (ind (lo < a ∧ a ≤ hi ∧ cross lo hi a < 0))
    have k3 := dbl (ind (lo < b ∧ b ≤ hi ∧ cross lo hi b < 0))
    rw [i1, i2]
    linear_combination key + se - k2 - k3 - k1
  refine ⟨hoff q (hq.mono hle), ?_⟩
  constructor
  · intro h
    have := main h.ne'
    rw [ind_pos h] at this
    by_cases g : Inside (e :: E) m
    · rw [ind_pos g] at this
      refine ⟨fun g' => ?_, fun g' => absurd g g'⟩
      rw [ind_pos g'] at this
      exact absurd this (by decide)
    · rw [ind_neg g, zero_add, ind_eq_one] at this
      exact ⟨fun _ => g, fun _ => this⟩
  · intro h
    have := main h.ne
    rw [ind_neg (not_lt.2 h.le), add_zero] at this
    constructor
    · intro g; rw [ind_pos g] at this; exact ind_eq_one.1 this.symm
    · intro g; rw [ind_pos g] at this; exact ind_eq_one.1 this

/-- The interior of a region is on the left of its directed edges, its exterior on the right. -/
theorem IsBoundary.sides {E : List Segment} (h : IsBoundary E) {e : Segment} (he : e ∈ E) {m : Point}
    (hm : m ∈ e.pts) (hi : ¬ e.IsEnd m) (hu : ∀ e' ∈ E, m ∈ e'.pts → e' = e) :
    ∃ δ > 0, ∀ q, Near δ m q → (0 < cross e.start e.stop q → Inside E q ∧ q ∉ segsPts E) ∧
      (cross e.start e.stop q < 0 → ¬ Inside E q ∧ q ∉ segsPts E) := by
  classical
  have perm := List.perm_cons_erase he
  have no := h.noOverlap.perm perm
  have off : m ∉ segsPts (E.erase e) := by
    rintro ⟨t, ht, hmt⟩
    have : t = e := hu t (List.mem_of_mem_erase ht) hmt
    subst this
    exact (List.pairwise_cons.1 no.2).1 _ ht (overlapping_self (h.noOverlap.1 _ he))
  obtain ⟨δ, δpos, hδ⟩ := local_sides (E := E.erase e) no.1 (fun q => by rw [← degree_perm perm]; exact h.even q)
    hm hi off
  refine ⟨δ, δpos, ?_⟩
  intro q hq
  obtain ⟨h0, h1, h2⟩ := hδ q hq
  have hqe : cross e.start e.stop q ≠ 0 → q ∉ segsPts E := by
    rintro hc ⟨t, ht, hqt⟩
    rcases List.mem_cons.1 (perm.mem_iff.1 ht) with rfl | ht
    · exact hc (mem_cross hqt)
    · exact h0 ⟨t, ht, hqt⟩
  rw [← inside_perm perm, ← inside_perm perm] at h1 h2
  have hl := h.left e he m hm hi hu
  have hp := h.noOverlap.1 e he
  rcases e.lo_hi_cases with ⟨e1, e2, e3⟩ | ⟨e1, e2, e3⟩
  · rw [e1, e2] at h1 h2
    have lt : e.start < e.stop := lt_of_le_of_ne e3 hp
    have nm := hl.1 lt
    exact ⟨fun g => ⟨(h1 g).2 nm, hqe g.ne'⟩, fun g => ⟨fun g' => nm ((h2 g).1 g'), hqe g.ne⟩⟩
  · rw [e1, e2] at h1 h2
    have nm : Inside E m := by
      by_contra hn
      exact absurd (hl.2 hn) (not_lt.2 e3)
    rw [cross_swap e.stop e.start] at hqe ⊢
    rw [neg_pos, neg_lt_zero]
    exact ⟨fun g => ⟨(h2 g).2 nm, hqe (by linarith)⟩, fun g => ⟨fun g' => (h1 g).1 g' nm, hqe (by linarith)⟩⟩

theorem SameEdges.mem {A B : List Segment} (h : SameEdges A B) {e : Segment} (he : e ∈ A) :
    ∃ e' ∈ B, e'.pts = e.pts := by
  obtain ⟨e', he', hn⟩ := List.mem_map.1 (h.mem_iff.1 (List.mem_map_of_mem he))
  exact ⟨e', he', by rw [← e'.pts_norm, hn, e.pts_norm]⟩

theorem IsBoundary.interiorOnLeft {E E' : List Segment} (h : IsBoundary E) (hs : SameEdges E E') {e : Segment}
    (he : e ∈ E) : InteriorOnLeft E' e := by
  intro m hm hi hu
  have hu' : ∀ e' ∈ E, m ∈ e'.pts → e' = e := by
    intro e' he' hm'
    by_contra hne
    obtain ⟨f, hf, hfe⟩ := hs.mem he'
    have hpts := hu f hf (by rw [hfe]; exact hm')
    rw [hfe] at hpts
    have hov : Overlapping e' e := (overlapping_congr hpts rfl).2 (overlapping_self (h.noOverlap.1 e he))
    have key : ∀ s ∈ E, ∀ t ∈ E, s ≠ t → ¬ Overlapping s t := by
      have hpw := h.noOverlap.2
      intro s hs t ht hst
      have : Std.Symm (fun s t : Segment => s ≠ t → ¬ Overlapping s t) :=
        ⟨fun s t g hts ho => g hts.symm (overlapping_symm ho)⟩
      exact (List.Pairwise.forall_of_forall (R := fun s t => s ≠ t → ¬ Overlapping s t)
        (fun s _ hss => absurd rfl hss)
        (List.Pairwise.imp (fun {s t} (g : ¬ Overlapping s t) (_ : s ≠ t) => g) hpw) hs ht) hst
    exact key e' he' e he hne hov
  obtain ⟨δ, δpos, hδ⟩ := h.sides he hm hi hu'
  refine ⟨δ, δpos, ?_⟩
  intro q hq
  rw [← hs.inside_iff, ← hs.segsPts_eq]
  exact hδ q hq

/-- There are points on the left of a segment near each of its points. -/
theorem exists_left_near {e : Segment} (he : e.Proper) {m : Point} (hm : m ∈ e.pts) {δ : ℚ} (hδ : 0 < δ) :
    ∃ q, Near δ m q ∧ 0 < cross e.start e.stop q := by
  set dx := e.stop.x - e.start.x with hdx
  set dy := e.stop.y - e.start.y with hdy
  set K := |dx| + |dy| + 1 with hK
  have K0 : 0 < K := by positivity
  have hne : 0 < dx * dx + dy * dy := by
    rcases eq_or_ne dx 0 with h | h
    · rcases eq_or_ne dy 0 with h' | h'
      · exact absurd (Point.ext' (by linarith) (by linarith)) he
      · rw [h]; have := mul_self_pos.2 h'; linarith
    · have := mul_self_pos.2 h
      have := mul_self_nonneg dy
      linarith
  have hK1 : δ / K * K = δ := div_mul_cancel₀ _ K0.ne'
  have d0 : 0 < δ / K := div_pos hδ K0
  refine ⟨⟨m.x - δ / K * dy, m.y + δ / K * dx⟩, ⟨?_, ?_⟩, ?_⟩
  · show |m.x - δ / K * dy - m.x| < δ
    rw [show m.x - δ / K * dy - m.x = - (δ / K * dy) by ring, abs_neg, abs_mul, abs_of_pos d0]
    rw [hK] at hK1 d0 ⊢
    nlinarith [abs_nonneg dx, abs_nonneg dy]
  · show |m.y + δ / K * dx - m.y| < δ
    rw [show m.y + δ / K * dx - m.y = δ / K * dx by ring, abs_mul, abs_of_pos d0]
    rw [hK] at hK1 d0 ⊢
    nlinarith [abs_nonneg dx, abs_nonneg dy]
  · have hc := mem_cross hm
    have e1 : cross e.start e.stop ⟨m.x - δ / K * dy, m.y + δ / K * dx⟩ =
        cross e.start e.stop m + δ / K * (dx * dx + dy * dy) := by
      unfold cross; rw [hdx, hdy]; ring
    rw [e1, hc, zero_add]
    exact mul_pos d0 hne

end Clipping

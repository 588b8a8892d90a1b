import Verif.Model.Bounding
import Verif.Lemmas.MultisegmentOps

/-! # Helper lemmas on boxes -/

namespace Clipping

/-- Box with at least one point. -/
def Box.Nonempty (b : Box) : Prop := b.minX ≤ b.maxX ∧ b.minY ≤ b.maxY

/-- Box with interior points. -/
def Box.Solid (b : Box) : Prop := b.minX < b.maxX ∧ b.minY < b.maxY

theorem relation_degenerate {e t : Segment} (he : e.start = e.stop) (ht : t.Proper) :
    segmentsRelation e t ≠ .disjoint ↔ e.start ∈ t.pts := by
  have lo : e.lo = e.start := by unfold Segment.lo; rw [← he, min_self]
  have hi : e.hi = e.start := by unfold Segment.hi; rw [← he, max_self]
  have lt := Segment.lo_lt_hi ht
  have col : ∀ c, orientation e.start e.start c = .collinear := by
    intro c; rw [orientation_col]; unfold cross; ring
  unfold segmentsRelation
  simp only [lo, hi, col]
  rw [Segment.mem_iff ht]
  generalize e.start = p
  by_cases hc : orientation t.lo t.hi p = .collinear
  · have hc' := orientation_col.1 hc
    simp only [hc, hc', ne_eq, not_true_eq_false, false_and, if_false, and_self, if_true, true_and]
    constructor
    · intro h
      by_contra hn
      apply h
      have n1 : p ≠ t.lo := by rintro rfl; exact hn ⟨le_rfl, lt.le⟩
      have n2 : p ≠ t.hi := by rintro rfl; exact hn ⟨lt.le, le_rfl⟩
      rw [if_neg (fun h => n1 h.1), if_neg n1, if_neg n2, if_neg (by rintro (h | h); exacts [n2 h, n1 h]),
        if_neg (fun h => hn ⟨h.1.le, h.2.le⟩), if_neg (fun h => (h.1.trans h.2).false)]
    · rintro ⟨h1, h2⟩
      rw [if_neg (by rintro ⟨a, b⟩; exact lt.ne (a.symm.trans b))]
      by_cases g1 : p = t.lo
      · rw [if_pos g1]; split_ifs <;> simp
      · rw [if_neg g1]
        by_cases g2 : p = t.hi
        · rw [if_pos g2]; split_ifs <;> simp
        · rw [if_neg g2, if_neg (by rintro (h | h); exacts [g2 h, g1 h]),
            if_pos ⟨lt_of_le_of_ne h1 (Ne.symm g1), lt_of_le_of_ne h2 g2⟩]
          split_ifs <;> simp
  · have hc' : cross t.lo t.hi p ≠ 0 := fun h => hc (orientation_col.2 h)
    have n1 : p ≠ t.lo := by rintro rfl; exact hc' (cross_self_left _ _)
    rw [if_neg (fun h => n1 h.1)]
    simp [hc, hc']

theorem relation_meets (e t : Segment) (ht : t.Proper) :
    segmentsRelation e t ≠ .disjoint ↔ ∃ p, p ∈ e.pts ∧ p ∈ t.pts := by
  by_cases he : e.Proper
  · have hm := relation_spec he ht
    constructor
    · intro hn
      by_contra hc
      push Not at hc
      exact hn (relation_unique he ht hm hc)
    · rintro ⟨p, h1, h2⟩ h
      rw [h] at hm
      exact hm p h1 h2
  · have he' : e.start = e.stop := not_not.1 he
    rw [relation_degenerate he' ht]
    constructor
    · intro h; exact ⟨_, e.start_mem, h⟩
    · rintro ⟨p, ⟨r, -, -, hx, hy⟩, h2⟩
      have : p = e.start := Point.ext' (by rw [hx, ← he']; ring) (by rw [hy, ← he']; ring)
      rwa [this] at h2

theorem mem_vertical {x a b y : ℚ} (h1 : a ≤ y) (h2 : y ≤ b) :
    (⟨x, y⟩ : Point) ∈ (Segment.mk ⟨x, a⟩ ⟨x, b⟩).pts := by
  rcases h1.eq_or_lt with rfl | h
  · exact Segment.start_mem _
  · have hd : 0 < b - a := by linarith
    refine ⟨(y - a) / (b - a), div_nonneg (by linarith) hd.le, (div_le_one hd).2 (by linarith), ?_, ?_⟩
    · simp
    · simp only; rw [div_mul_cancel₀ _ hd.ne']; ring

theorem mem_horizontal {y a b x : ℚ} (h1 : a ≤ x) (h2 : x ≤ b) :
    (⟨x, y⟩ : Point) ∈ (Segment.mk ⟨a, y⟩ ⟨b, y⟩).pts := by
  rcases h1.eq_or_lt with rfl | h
  · exact Segment.start_mem _
  · have hd : 0 < b - a := by linarith
    refine ⟨(x - a) / (b - a), div_nonneg (by linarith) hd.le, (div_le_one hd).2 (by linarith), ?_, ?_⟩
    · simp only; rw [div_mul_cancel₀ _ hd.ne']; ring
    · simp

/-- A point of the box satisfying one bound with equality lies on an edge. -/
theorem mem_edge {b : Box} {p : Point} (hp : p ∈ b.pts)
    (h : p.x = b.minX ∨ p.x = b.maxX ∨ p.y = b.minY ∨ p.y = b.maxY) :
    ∃ e ∈ toEdges b, p ∈ e.pts := by
  obtain ⟨h1, h2, h3, h4⟩ := hp
  have hp : p = ⟨p.x, p.y⟩ := rfl
  rcases h with h | h | h | h <;> rw [hp, h]
  · exact ⟨_, by simp [toEdges], mem_vertical h3 h4⟩
  · exact ⟨⟨⟨b.maxX, b.minY⟩, ⟨b.maxX, b.maxY⟩⟩, by simp [toEdges], mem_vertical h3 h4⟩
  · exact ⟨_, by simp [toEdges], mem_horizontal h1 h2⟩
  · exact ⟨⟨⟨b.minX, b.maxY⟩, ⟨b.maxX, b.maxY⟩⟩, by simp [toEdges], mem_horizontal h1 h2⟩

theorem edges_sub {b : Box} (hb : b.Nonempty) {e : Segment} (he : e ∈ toEdges b) : e.pts ⊆ b.pts := by
  obtain ⟨hx, hy⟩ := hb
  rintro p ⟨t, h0, h1, px, py⟩
  simp only [toEdges, List.mem_cons, List.not_mem_nil, or_false] at he
  rcases he with rfl | rfl | rfl | rfl <;> simp only at px py <;>
    exact ⟨by rw [px]; nlinarith, by rw [px]; nlinarith, by rw [py]; nlinarith, by rw [py]; nlinarith⟩

/-- Affine functions nonnegative at 0, one of them negative at 1: there is a last common nonnegative
parameter. -/
theorem exit_param (l : List (ℚ × ℚ)) (h0 : ∀ f ∈ l, 0 ≤ f.1) (h1 : ∃ f ∈ l, f.1 + f.2 < 0) :
    ∃ r : ℚ, 0 ≤ r ∧ r < 1 ∧ (∀ f ∈ l, 0 ≤ f.1 + r * f.2) ∧ ∃ f ∈ l, f.1 + r * f.2 = 0 ∧ f.2 < 0 := by
  induction l with
  | nil => simp at h1
  | cons f l ih =>
    have f0 := h0 f (by simp)
    have h0' : ∀ g ∈ l, 0 ≤ g.1 := fun g hg => h0 g (by simp [hg])
    by_cases hf : f.1 + f.2 < 0
    · have fneg : f.2 < 0 := by linarith
      have hpos : 0 < -f.2 := by linarith
      set r0 := f.1 / (-f.2) with hr0
      have e0 : f.1 + r0 * f.2 = 0 := by
        have := div_mul_cancel₀ f.1 hpos.ne'
        rw [← hr0] at this; linarith
      have r0nn : 0 ≤ r0 := div_nonneg f0 hpos.le
      have r0lt : r0 < 1 := (div_lt_one hpos).2 (by linarith)
      by_cases hl : ∃ g ∈ l, g.1 + g.2 < 0
      · obtain ⟨r, a, b, c, g, hg, d, d'⟩ := ih h0' hl
        rcases le_total r0 r with h | h
        · refine ⟨r0, r0nn, r0lt, ?_, f, by simp, e0, fneg⟩
          intro k hk
          rcases List.mem_cons.1 hk with rfl | hk
          · exact e0.ge
          · have k0 := h0' k hk
            have k1 := c k hk
            rcases le_total 0 k.2 with hk2 | hk2
            · have := mul_nonneg r0nn hk2; linarith
            · nlinarith
        · refine ⟨r, a, b, ?_, g, by simp [hg], d, d'⟩
          intro k hk
          rcases List.mem_cons.1 hk with rfl | hk
          · nlinarith
          · exact c k hk
      · push Not at hl
        refine ⟨r0, r0nn, r0lt, ?_, f, by simp, e0, fneg⟩
        intro k hk
        rcases List.mem_cons.1 hk with rfl | hk
        · exact e0.ge
        · have k0 := h0' k hk
          have k1 := hl k hk
          nlinarith
    · push Not at hf
      obtain ⟨g, hg, hneg⟩ := h1
      have hl : ∃ g ∈ l, g.1 + g.2 < 0 := by
        rcases List.mem_cons.1 hg with rfl | hg
        · exact absurd hneg (not_lt.2 hf)
        · exact ⟨g, hg, hneg⟩
      obtain ⟨r, a, b, c, g, hg, d, d'⟩ := ih h0' hl
      refine ⟨r, a, b, ?_, g, by simp [hg], d, d'⟩
      intro k hk
      rcases List.mem_cons.1 hk with rfl | hk
      · nlinarith
      · exact c k hk

/-- Leaving a box: from a point `p` inside towards a point `e` outside there is a last point `w` inside; it
is on an edge, and no later point is inside. -/
theorem exit_point {b : Box} {p e : Point} (hp : p ∈ b.pts) (he : e ∉ b.pts) :
    ∃ r : ℚ, 0 ≤ r ∧ r < 1 ∧
      let w : Point := ⟨p.x + r * (e.x - p.x), p.y + r * (e.y - p.y)⟩
      w ∈ b.pts ∧ (w.x = b.minX ∨ w.x = b.maxX ∨ w.y = b.minY ∨ w.y = b.maxY) ∧
      ∀ r', r < r' → (⟨p.x + r' * (e.x - p.x), p.y + r' * (e.y - p.y)⟩ : Point) ∉ b.pts := by
  obtain ⟨h1, h2, h3, h4⟩ := hp
  obtain ⟨r, r0, r1, hall, f, hf, hz, hneg⟩ := exit_param
    [(p.x - b.minX, e.x - p.x), (b.maxX - p.x, -(e.x - p.x)), (p.y - b.minY, e.y - p.y),
      (b.maxY - p.y, -(e.y - p.y))]
    (by intro f hf; simp only [List.mem_cons, List.not_mem_nil, or_false] at hf
        rcases hf with rfl | rfl | rfl | rfl <;> simp only <;> linarith)
    (by by_contra hc
        push Not at hc
        apply he
        simp only [List.mem_cons, List.not_mem_nil, or_false, forall_eq_or_imp, forall_eq] at hc
        exact ⟨by linarith [hc.1], by linarith [hc.2.1], by linarith [hc.2.2.1], by linarith [hc.2.2.2]⟩)
  simp only [List.mem_cons, List.not_mem_nil, or_false, forall_eq_or_imp, forall_eq] at hall
  obtain ⟨a1, a2, a3, a4⟩ := hall
  refine ⟨r, r0, r1, ⟨by simp only; linarith, by simp only; linarith, by simp only; linarith,
    by simp only; linarith⟩, ?_, ?_⟩
  · simp only [List.mem_cons, List.not_mem_nil, or_false] at hf
    rcases hf with rfl | rfl | rfl | rfl <;> simp only at hz ⊢
    · left; linarith
    · right; left; linarith
    · right; right; left; linarith
    · right; right; right; linarith
  · rintro r' hr' ⟨g1, g2, g3, g4⟩
    simp only at g1 g2 g3 g4
    simp only [List.mem_cons, List.not_mem_nil, or_false] at hf
    rcases hf with rfl | rfl | rfl | rfl <;> simp only at hz hneg <;> nlinarith

theorem intersectsWith_iff (a b : Box) (ha : a.Nonempty) (hb : b.Nonempty) :
    intersectsWith a b = true ↔ ∃ p, p ∈ a.pts ∧ p ∈ b.pts := by
  obtain ⟨a1, a2⟩ := ha
  obtain ⟨b1, b2⟩ := hb
  unfold intersectsWith
  simp only [Bool.and_eq_true, decide_eq_true_eq]
  constructor
  · rintro ⟨⟨⟨h1, h2⟩, h3⟩, h4⟩
    exact ⟨⟨max a.minX b.minX, max a.minY b.minY⟩,
      ⟨le_max_left _ _, max_le a1 h1, le_max_left _ _, max_le a2 h3⟩,
      ⟨le_max_right _ _, max_le h2 b1, le_max_right _ _, max_le h4 b2⟩⟩
  · rintro ⟨p, ⟨h1, h2, h3, h4⟩, g1, g2, g3, g4⟩
    exact ⟨⟨⟨g1.trans h2, h1.trans g2⟩, g3.trans h4⟩, h3.trans g4⟩

theorem isSubsetOf_iff (a b : Box) (ha : a.Nonempty) : isSubsetOf a b = true ↔ a.pts ⊆ b.pts := by
  unfold isSubsetOf
  simp only [Bool.and_eq_true, decide_eq_true_eq]
  constructor
  · rintro ⟨⟨⟨h1, h2⟩, h3⟩, h4⟩ p ⟨g1, g2, g3, g4⟩
    exact ⟨h1.trans g1, g2.trans h2, h3.trans g3, g4.trans h4⟩
  · intro h
    obtain ⟨h1, -, h3, -⟩ := h (a := ⟨a.minX, a.minY⟩) ⟨le_rfl, ha.1, le_rfl, ha.2⟩
    obtain ⟨-, h2, -, h4⟩ := h (a := ⟨a.maxX, a.maxY⟩) ⟨ha.1, le_rfl, ha.2, le_rfl⟩
    exact ⟨⟨⟨h1, h2⟩, h3⟩, h4⟩

theorem segmentBox_nonempty (s : Segment) : (segmentBox s).Nonempty := ⟨min_le_max, min_le_max⟩

theorem segmentBox_pts (s : Segment) : s.pts ⊆ (segmentBox s).pts := by
  rintro p ⟨t, h0, h1, hx, hy⟩
  refine ⟨?_, ?_, ?_, ?_⟩ <;> simp only [segmentBox]
  · rw [hx]; rcases le_total s.start.x s.stop.x with h | h
    · rw [min_eq_left h]; nlinarith
    · rw [min_eq_right h]; nlinarith
  · rw [hx]; rcases le_total s.start.x s.stop.x with h | h
    · rw [max_eq_right h]; nlinarith
    · rw [max_eq_left h]; nlinarith
  · rw [hy]; rcases le_total s.start.y s.stop.y with h | h
    · rw [min_eq_left h]; nlinarith
    · rw [min_eq_right h]; nlinarith
  · rw [hy]; rcases le_total s.start.y s.stop.y with h | h
    · rw [max_eq_right h]; nlinarith
    · rw [max_eq_left h]; nlinarith

theorem segmentBox_sub {s : Segment} {b : Box} (h1 : s.start ∈ b.pts) (h2 : s.stop ∈ b.pts) :
    (segmentBox s).pts ⊆ b.pts := by
  rintro p ⟨g1, g2, g3, g4⟩
  obtain ⟨a1, a2, a3, a4⟩ := h1
  obtain ⟨b1, b2, b3, b4⟩ := h2
  simp only [segmentBox] at *
  exact ⟨(le_min a1 b1).trans g1, g2.trans (max_le a2 b2), (le_min a3 b3).trans g3,
    g4.trans (max_le a4 b4)⟩

theorem at_mem {p q : Point} {r : ℚ} (h0 : 0 ≤ r) (h1 : r ≤ 1) :
    (⟨p.x + r * (q.x - p.x), p.y + r * (q.y - p.y)⟩ : Point) ∈ (Segment.mk p q).pts := ⟨r, h0, h1, rfl, rfl⟩

theorem coupledWith_of_two {a b : Box} {p q : Point} (hpq : p ≠ q) (h1 : p ∈ a.pts) (h2 : q ∈ a.pts)
    (h3 : p ∈ b.pts) (h4 : q ∈ b.pts) : coupledWith a b = true := by
  obtain ⟨a1, a2, a3, a4⟩ := h1
  obtain ⟨b1, b2, b3, b4⟩ := h2
  obtain ⟨c1, c2, c3, c4⟩ := h3
  obtain ⟨d1, d2, d3, d4⟩ := h4
  have hi : intersectsWith a b = true := by
    unfold intersectsWith; simp only [Bool.and_eq_true, decide_eq_true_eq]
    exact ⟨⟨⟨by linarith, by linarith⟩, by linarith⟩, by linarith⟩
  unfold coupledWith
  rw [hi, Bool.true_and, Bool.or_eq_true, Bool.not_eq_true']
  by_cases ht : touchesWith a b = true
  · right
    unfold touchesWith at ht
    unfold edgesOverlapWith
    simp only [Bool.and_eq_true, Bool.or_eq_true, decide_eq_true_eq] at *
    rcases ht with ⟨hx, -⟩ | ⟨-, hy⟩
    · left
      refine ⟨hx, ?_⟩
      have hxe : p.x = q.x := by rcases hx with h | h <;> linarith
      have hye : p.y ≠ q.y := fun e => hpq (Point.ext' hxe e)
      rcases lt_or_gt_of_ne hye with h | h <;> constructor <;> linarith
    · right
      refine ⟨?_, hy⟩
      have hye : p.y = q.y := by rcases hy with h | h <;> linarith
      have hxe : p.x ≠ q.x := fun e => hpq (Point.ext' e hye)
      rcases lt_or_gt_of_ne hxe with h | h <;> constructor <;> linarith
  · left; simpa using ht

theorem edge_end_vertex {b : Box} {E : Segment} (hE : E ∈ toEdges b) {w : Point} (hw : E.IsEnd w) :
    w ∈ toVertices b := by
  simp only [toEdges, List.mem_cons, List.not_mem_nil, or_false] at hE
  rcases hE with rfl | rfl | rfl | rfl <;> rcases hw with rfl | rfl <;> simp [toVertices]

theorem coupled_edge_of_exit {b : Box} (hb : b.Nonempty) {s : Segment} (hs : s.Proper)
    (hc : ∀ v ∈ toVertices b, v ∈ s.pts → s.IsEnd v) {p q : Point} {tp tq : ℚ}
    (h0 : 0 ≤ tp) (hlt : tp < tq) (h1 : tq ≤ 1) (ep : p = s.at tp) (eq : q = s.at tq)
    (hp : p ∈ b.pts) (hq : q ∈ b.pts) (hout : s.stop ∉ b.pts) :
    ∃ E ∈ toEdges b, segmentsRelation E s ≠ .touch ∧ segmentsRelation E s ≠ .disjoint := by
  obtain ⟨r, r0, r1, hw, hedge, hlast⟩ := exit_point hp hout
  obtain ⟨E, hE, hwE⟩ := mem_edge hw hedge
  have tp1 : tp < 1 := hlt.trans_le h1
  set t := tp + r * (1 - tp) with ht
  have hwt : (⟨p.x + r * (s.stop.x - p.x), p.y + r * (s.stop.y - p.y)⟩ : Point) = s.at t := by
    rw [ep]; unfold Segment.at; simp only [Point.mk.injEq]; constructor <;> (rw [ht]; ring)
  rw [hwt] at hw hwE
  have tle : t < 1 := by rw [ht]; nlinarith
  have tge : tq ≤ t := by
    by_contra hcc
    push Not at hcc
    have hpos : 0 < 1 - tp := by linarith
    have := hlast ((tq - tp) / (1 - tp)) (by rw [lt_div_iff₀ hpos]; rw [ht] at hcc; linarith)
    apply this
    have e : (⟨p.x + (tq - tp) / (1 - tp) * (s.stop.x - p.x), p.y + (tq - tp) / (1 - tp) * (s.stop.y - p.y)⟩ : Point) = q := by
      rw [ep, eq]; unfold Segment.at; simp only [Point.mk.injEq]
      have := div_mul_cancel₀ (tq - tp) hpos.ne'
      constructor
      · linear_combination (s.stop.x - s.start.x) * this
      · linear_combination (s.stop.y - s.start.y) * this
    rw [e]; exact hq
  have tpos : 0 < t := by linarith
  have hws : s.at t ∈ s.pts := ⟨t, tpos.le, tle.le, rfl, rfl⟩
  have hne : ¬ s.IsEnd (s.at t) := by
    have hd := not_both_zero hs
    rintro (h | h)
    · have hx := congrArg Point.x h
      have hy := congrArg Point.y h
      simp only [Segment.at] at hx hy
      rcases hd with hd | hd
      · have : t * (s.stop.x - s.start.x) = 0 := by linarith
        rcases mul_eq_zero.1 this with h | h
        exacts [tpos.ne' h, hd h]
      · have : t * (s.stop.y - s.start.y) = 0 := by linarith
        rcases mul_eq_zero.1 this with h | h
        exacts [tpos.ne' h, hd h]
    · have hx := congrArg Point.x h
      have hy := congrArg Point.y h
      simp only [Segment.at] at hx hy
      rcases hd with hd | hd
      · have : (1 - t) * (s.stop.x - s.start.x) = 0 := by linarith
        rcases mul_eq_zero.1 this with h | h
        exacts [by linarith, hd h]
      · have : (1 - t) * (s.stop.y - s.start.y) = 0 := by linarith
        rcases mul_eq_zero.1 this with h | h
        exacts [by linarith, hd h]
  refine ⟨E, hE, ?_, (relation_meets E s hs).2 ⟨_, hwE, hws⟩⟩
  intro htouch
  apply hne
  apply hc _ _ hws
  by_cases hEp : E.Proper
  · obtain ⟨c, -, -, hu, he⟩ := touch_data hEp hs htouch
    rw [← hu _ hwE hws] at he
    rcases he with he | he
    · exact edge_end_vertex hE he
    · exact (hne he).elim
  · have he' : E.start = E.stop := not_not.1 hEp
    obtain ⟨r, -, -, hx, hy⟩ := hwE
    have : s.at t = E.start := Point.ext' (by rw [hx, ← he']; ring) (by rw [hy, ← he']; ring)
    exact edge_end_vertex hE (Or.inl this)

theorem segmentBox_rev (s : Segment) : segmentBox s.rev = segmentBox s := by
  unfold segmentBox Segment.rev
  simp only [min_comm, max_comm]

theorem coupledWithSegment_of_two {b : Box} (hb : b.Nonempty) {s : Segment} (hs : s.Proper)
    (hc : ∀ v ∈ toVertices b, v ∈ s.pts → s.IsEnd v) {p q : Point} (hpq : p ≠ q)
    (h1 : p ∈ b.pts) (h2 : q ∈ b.pts) (h3 : p ∈ s.pts) (h4 : q ∈ s.pts) :
    coupledWithSegment b s = true := by
  unfold coupledWithSegment
  simp only [Bool.and_eq_true, Bool.or_eq_true, List.any_eq_true, decide_eq_true_eq]
  refine ⟨coupledWith_of_two hpq (segmentBox_pts s h3) (segmentBox_pts s h4) h1 h2, ?_⟩
  rw [isSubsetOf_iff _ _ (segmentBox_nonempty s)]
  by_cases hsub : (segmentBox s).pts ⊆ b.pts
  · exact Or.inl hsub
  · right
    have key : ∀ (u : Segment), u.Proper → u.pts = s.pts → (∀ x, u.IsEnd x ↔ s.IsEnd x) →
        (∀ E, segmentsRelation E u = segmentsRelation E s) → u.stop ∉ b.pts →
        ∃ E ∈ toEdges b, segmentsRelation E s ≠ .touch ∧ segmentsRelation E s ≠ .disjoint := by
      intro u hu eu ee er hout
      rw [← eu] at h3 h4
      have hc' : ∀ v ∈ toVertices b, v ∈ u.pts → u.IsEnd v :=
        fun v hv hvu => (ee v).2 (hc v hv (eu ▸ hvu))
      obtain ⟨tp, p0, p1, px, py⟩ := h3
      obtain ⟨tq, q0, q1, qx, qy⟩ := h4
      have ep : p = u.at tp := Point.ext' px py
      have eq : q = u.at tq := Point.ext' qx qy
      have hne : tp ≠ tq := fun e => hpq (by rw [ep, eq, e])
      simp only [← er]
      rcases lt_or_gt_of_ne hne with h | h
      · exact coupled_edge_of_exit hb hu hc' p0 h q1 ep eq h1 h2 hout
      · exact coupled_edge_of_exit hb hu hc' q0 h p1 eq ep h2 h1 hout
    by_cases hout : s.stop ∈ b.pts
    · have hout' : s.start ∉ b.pts := fun h => hsub (segmentBox_sub h hout)
      exact key s.rev (Segment.rev_proper hs) s.rev_pts (fun x => Segment.rev_isEnd)
        (fun E => segmentsRelation_rev_right E s) hout'
    · exact key s hs rfl (fun x => Iff.rfl) (fun E => rfl) hout

end Clipping

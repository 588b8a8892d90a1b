import Verif.Lemmas.Area.Gaps
import Verif.Lemmas.Region.Polygon

/-!
# Areas from vertical slices
-/

namespace Clipping

open Sweep

/-- the vertical line meets the inner points of the segment -/
def Active (e : Segment) (x : ℚ) : Prop := e.lo.x < x ∧ x < e.hi.x

instance (e : Segment) (x : ℚ) : Decidable (Active e x) := by unfold Active; infer_instance

/-- where the vertical line meets the segment -/
def height (e : Segment) (x : ℚ) : ℚ := e.lo.y + (e.hi.y - e.lo.y) / (e.hi.x - e.lo.x) * (x - e.lo.x)

/-- no end is on the vertical line -/
def Generic (E : List Segment) (x : ℚ) : Prop := ∀ e ∈ E, e.start.x ≠ x ∧ e.stop.x ≠ x

/-- different segments do not meet on the vertical line -/
def Clear (E : List Segment) (x : ℚ) : Prop := ∀ e ∈ E, ∀ e' ∈ E, ∀ m : Point, m.x = x → m ∈ e.pts → m ∈ e'.pts → e' = e

theorem lo_start_or (e : Segment) : e.lo = e.start ∧ e.hi = e.stop ∨ e.lo = e.stop ∧ e.hi = e.start := by
  unfold Segment.lo Segment.hi
  rcases le_total e.start e.stop with h | h
  · exact .inl ⟨min_eq_left h, max_eq_right h⟩
  · exact .inr ⟨min_eq_right h, max_eq_left h⟩

theorem Generic.ends {E : List Segment} {x : ℚ} (g : Generic E x) {e : Segment} (he : e ∈ E) : e.lo.x ≠ x ∧ e.hi.x ≠ x := by
  obtain ⟨a, b⟩ := g e he
  rcases lo_start_or e with ⟨c, d⟩ | ⟨c, d⟩ <;> rw [c, d]
  · exact ⟨a, b⟩
  · exact ⟨b, a⟩

theorem lo_x_le_hi_x (e : Segment) : e.lo.x ≤ e.hi.x := by
  rcases Point.le_def.1 (Segment.lo_le_hi e) with h | h
  · exact h.le
  · exact h.1.le

theorem Active.mem {e : Segment} {x : ℚ} (h : Active e x) : (⟨x, height e x⟩ : Point) ∈ e.pts := by
  rw [← mem_pts_lo_hi]
  have d : 0 < e.hi.x - e.lo.x := by linarith [h.1, h.2]
  refine ⟨(x - e.lo.x) / (e.hi.x - e.lo.x), div_nonneg (by linarith [h.1]) d.le, (div_le_one d).2 (by linarith [h.2]), ?_, ?_⟩
  · show x = e.lo.x + _ * (e.hi.x - e.lo.x)
    rw [div_mul_cancel₀ _ d.ne']
    ring
  · show height e x = e.lo.y + _ * (e.hi.y - e.lo.y)
    unfold height
    ring

theorem Active.not_end {e : Segment} {x y : ℚ} (h : Active e x) : ¬ e.IsEnd ⟨x, y⟩ := by
  have a : (⟨x, y⟩ : Point) ≠ e.lo := fun k => absurd h.1 (by rw [← k]; exact lt_irrefl _)
  have b : (⟨x, y⟩ : Point) ≠ e.hi := fun k => absurd h.2 (by rw [← k]; exact lt_irrefl _)
  rintro (k | k) <;> rcases lo_start_or e with ⟨c, d⟩ | ⟨c, d⟩
  · exact a (k.trans c.symm)
  · exact b (k.trans d.symm)
  · exact b (k.trans d.symm)
  · exact a (k.trans c.symm)

theorem mem_active {e : Segment} {m : Point} (a : e.lo.x ≠ m.x) (b : e.hi.x ≠ m.x) (h : m ∈ e.pts) : Active e m.x ∧ height e m.x = m.y := by
  rw [← mem_pts_lo_hi] at h
  obtain ⟨t, t0, t1, hx, hy⟩ := h
  change m.x = e.lo.x + t * (e.hi.x - e.lo.x) at hx
  change m.y = e.lo.y + t * (e.hi.y - e.lo.y) at hy
  have d := lo_x_le_hi_x e
  have h1 : e.lo.x ≤ m.x := by nlinarith
  have h2 : m.x ≤ e.hi.x := by nlinarith
  have h1' := lt_of_le_of_ne h1 a
  have h2' := lt_of_le_of_ne h2 b.symm
  refine ⟨⟨h1', h2'⟩, ?_⟩
  have d' : e.hi.x - e.lo.x ≠ 0 := by linarith
  unfold height
  rw [hx, hy, show e.lo.x + t * (e.hi.x - e.lo.x) - e.lo.x = (e.hi.x - e.lo.x) * t by ring, ← mul_assoc, div_mul_cancel₀ _ d']
  ring

theorem isBelow_iff_height {e : Segment} {m : Point} (a : e.lo.x ≠ m.x) : IsBelow e m ↔ Active e m.x ∧ height e m.x < m.y := by
  unfold IsBelow Active
  constructor
  · rintro ⟨h1, h2, h3⟩
    refine ⟨⟨lt_of_le_of_ne h1 a, h2⟩, ?_⟩
    have d : 0 < e.hi.x - e.lo.x := by linarith
    unfold cross at h3
    unfold height
    rw [div_mul_eq_mul_div, ← lt_sub_iff_add_lt', div_lt_iff₀ d]
    linarith
  · rintro ⟨⟨h1, h2⟩, h3⟩
    refine ⟨h1.le, h2, ?_⟩
    have d : 0 < e.hi.x - e.lo.x := by linarith
    unfold height at h3
    rw [div_mul_eq_mul_div, ← lt_sub_iff_add_lt', div_lt_iff₀ d] at h3
    unfold cross
    linarith

/-- whether the region is above the directed edge -/
def upward (e : Segment) : ℚ := if e.start < e.stop then 1 else -1

/-- number of edges below with the region above, less the number of edges below with the region below -/
def signedBelow (E : List Segment) (m : Point) : ℚ := (E.map fun e => if IsBelow e m then upward e else 0).sum

theorem signedBelow_perm {E E' : List Segment} (h : E.Perm E') (m : Point) : signedBelow E m = signedBelow E' m :=
  (h.map _).sum_eq

theorem exists_highest {α : Type} (f : α → ℚ) {l : List α} (h : l ≠ []) : ∃ a ∈ l, ∀ b ∈ l, f b ≤ f a := by
  induction l with
  | nil => exact absurd rfl h
  | cons a l ih =>
    by_cases hl : l = []
    · exact ⟨a, List.mem_cons_self, by simp [hl]⟩
    · obtain ⟨b, hb, k⟩ := ih hl
      rcases le_total (f a) (f b) with c | c
      · exact ⟨b, List.mem_cons_of_mem _ hb, fun d hd => (List.mem_cons.1 hd).elim (fun e => e ▸ c) (k d)⟩
      · exact ⟨a, List.mem_cons_self, fun d hd => (List.mem_cons.1 hd).elim (fun e => e ▸ le_rfl) fun hd => (k d hd).trans c⟩

theorem signedBelow_eq {E : List Segment} (h : IsBoundary E) {x : ℚ} (g : Generic E x) (c : Clear E x) {m : Point} (hm : m.x = x) :
    signedBelow E m = if Inside E m then 1 else 0 := by
  induction hn : E.countP (fun e => decide (IsBelow e m)) generalizing m with
  | zero =>
    rw [if_neg (by unfold Inside; rw [hn]; simp)]
    rw [List.countP_eq_zero] at hn
    unfold signedBelow
    rw [List.map_congr_left (g := fun _ => (0 : ℚ)) fun e he => if_neg (by simpa using hn e he)]
    simp
  | succ n ih =>
    -- the highest edge below
    obtain ⟨e, he, hb, top⟩ : ∃ e ∈ E, IsBelow e m ∧ ∀ e' ∈ E, IsBelow e' m → height e' x ≤ height e x := by
      have ne : E.filter (fun e => decide (IsBelow e m)) ≠ [] := by
        intro k
        rw [List.countP_eq_length_filter, k] at hn
        simp at hn
      obtain ⟨e, he, k⟩ := exists_highest (fun e => height e x) ne
      rw [List.mem_filter] at he
      refine ⟨e, he.1, by simpa using he.2, fun e' he' hb' => k e' (List.mem_filter.2 ⟨he', by simpa using hb'⟩)⟩
    obtain ⟨rest, hp⟩ : ∃ rest, E.Perm (e :: rest) := ⟨_, List.perm_cons_erase he⟩
    have nd : E.Nodup := by
      refine List.Pairwise.imp_of_mem (fun {a b} ha _ k => ?_) h.noOverlap.2
      rintro rfl
      exact k ⟨a.start, a.stop, h.noOverlap.1 a ha, a.start_mem, a.stop_mem, a.start_mem, a.stop_mem⟩
    have hr : e ∉ rest := (List.nodup_cons.1 (hp.nodup_iff.1 nd)).1
    have act := (isBelow_iff_height (m := m) (by rw [hm]; exact (g.ends he).1)).1 hb
    rw [hm] at act
    set m' : Point := ⟨x, height e x⟩ with hm'
    have same : ∀ e' ∈ rest, (IsBelow e' m ↔ IsBelow e' m') := by
      intro e' he'
      have mem : e' ∈ E := hp.symm.subset (List.mem_cons_of_mem _ he')
      have i1 := isBelow_iff_height (e := e') (m := m) (by rw [hm]; exact (g.ends mem).1)
      have i2 := isBelow_iff_height (e := e') (m := m') (g.ends mem).1
      constructor
      · intro k
        have t := top e' mem k
        rw [i1, hm] at k
        rw [i2]
        refine ⟨k.1, lt_of_le_of_ne t fun eq => ?_⟩
        have := c e he e' mem m' rfl act.1.mem (by
          have r := k.1.mem
          rw [show height e' x = height e x from eq] at r
          exact r)
        rw [this] at he'
        exact hr he'
      · intro k
        rw [i2] at k
        rw [i1, hm]
        exact ⟨k.1, k.2.trans act.2⟩
    have nb : ¬ IsBelow e m' := by
      rw [isBelow_iff_height (m := m') (g.ends he).1]
      exact fun k => lt_irrefl _ k.2
    have cnt : ∀ q, E.countP (fun e => decide (IsBelow e q)) = (e :: rest).countP fun e => decide (IsBelow e q) := fun q => hp.countP_eq _
    have cr : rest.countP (fun e => decide (IsBelow e m)) = rest.countP fun e => decide (IsBelow e m') :=
      List.countP_congr fun e' he' => by simpa using same e' he'
    have n1 : E.countP (fun e => decide (IsBelow e m')) = n := by
      rw [cnt, List.countP_cons_of_pos (by simpa using hb), cr] at hn
      rw [cnt, List.countP_cons_of_neg (by simpa using nb)]
      exact Nat.succ_injective hn
    have key := ih (m := m') rfl n1
    have s1 : signedBelow E m = upward e + signedBelow rest m' := by
      rw [signedBelow_perm hp]
      unfold signedBelow
      rw [List.map_cons, List.sum_cons, if_pos hb]
      congr 2
      refine List.map_congr_left fun e' he' => ?_
      simp only [same e' he']
    have s2 : signedBelow E m' = signedBelow rest m' := by
      rw [signedBelow_perm hp]
      unfold signedBelow
      rw [List.map_cons, List.sum_cons, if_neg nb, zero_add]
    have l := h.left e he m' act.1.mem act.1.not_end fun e' he' k => c e he e' he' m' rfl act.1.mem k
    have i1 : Inside E m ↔ ¬ Inside E m' := by
      unfold Inside
      rw [hn, n1, Nat.odd_add_one]
    rw [s1, ← s2, key]
    unfold upward
    by_cases k : Inside E m'
    · rw [if_neg (fun k' => l.1 k' k), if_pos k, if_neg (fun k' => i1.1 k' k)]
      norm_num
    · rw [if_pos (l.2 k), if_neg k, if_pos (i1.2 k)]
      norm_num

/-- As many edges of a vertical slice have the region above as below. -/
theorem upward_sum {E : List Segment} (h : IsBoundary E) {x : ℚ} (g : Generic E x) (c : Clear E x) :
    (E.map fun e => if Active e x then upward e else 0).sum = 0 := by
  obtain ⟨y, hy⟩ : ∃ y, ∀ e ∈ E, height e x < y := by
    by_cases ne : E = []
    · exact ⟨0, by simp [ne]⟩
    · obtain ⟨e, -, k⟩ := exists_highest (fun e => height e x) ne
      exact ⟨height e x + 1, fun e' he' => by linarith [k e' he']⟩
  have b : ∀ e ∈ E, (IsBelow e ⟨x, y⟩ ↔ Active e x) := fun e he => by
    rw [isBelow_iff_height (m := ⟨x, y⟩) (g.ends he).1]
    exact ⟨fun k => k.1, fun k => ⟨k, hy e he⟩⟩
  have s := signedBelow_eq h g c (m := ⟨x, y⟩) rfl
  have n : ¬ Inside E ⟨x, y⟩ := by
    have i := inside_sum E ⟨x, y⟩
    have j := sum_ends_list h.even fun q => q.x < x
    have e : ∀ e ∈ E, ind (IsBelow e ⟨x, y⟩) = ind (e.start.x < x) + ind (e.stop.x < x) := by
      intro e he
      rw [← ends_lo_hi (fun q => q.x < x) e]
      have l := lo_x_le_hi_x e
      obtain ⟨n1, n2⟩ := g.ends he
      by_cases k : Active e x
      · rw [ind_pos ((b e he).2 k), ind_pos k.1, ind_neg (not_lt.2 k.2.le), add_zero]
      · rw [ind_neg (fun k' => k ((b e he).1 k'))]
        by_cases k1 : e.lo.x < x
        · have k2 : e.hi.x < x := lt_of_le_of_ne (not_lt.1 fun k2 => k ⟨k1, k2⟩) n2
          rw [ind_pos k1, ind_pos k2]
          rfl
        · rw [ind_neg k1, ind_neg (fun k2 => k1 (l.trans_lt k2)), add_zero]
    rw [List.map_congr_left e, j] at i
    intro k
    rw [ind_pos k] at i
    exact one_ne_zero i
  rw [if_neg n] at s
  refine Eq.trans ?_ s
  unfold signedBelow
  congr 1
  refine List.map_congr_left fun e he => ?_
  simp only [b e he]

/-- The length of a slice. -/
theorem slice_eq {E : List Segment} (h : IsBoundary E) {x : ℚ} (g : Generic E x) (c : Clear E x) {Y : List ℚ} (hY : Y.Pairwise (· < ·))
    (hE : ∀ e ∈ E, Active e x → height e x ∈ Y) :
    (E.map fun e => if Active e x then - upward e * height e x else 0).sum =
      ((gaps Y).map fun v => (v.2 - v.1) * if Inside E ⟨x, mid v⟩ then 1 else 0).sum := by
  have a : ∀ v ∈ gaps Y, ((v.2 - v.1) * if Inside E ⟨x, mid v⟩ then 1 else 0) =
      (E.map fun e => if Active e x ∧ height e x < mid v then upward e * (v.2 - v.1) else 0).sum := by
    intro v hv
    rw [← signedBelow_eq h g c (m := ⟨x, mid v⟩) rfl]
    unfold signedBelow
    rw [← mul_sum]
    congr 1
    refine List.map_congr_left fun e he => ?_
    simp only [isBelow_iff_height (m := ⟨x, mid v⟩) (g.ends he).1]
    split_ifs <;> ring
  rw [List.map_congr_left a, sum_swap]
  by_cases ne : Y = []
  · subst ne
    have z : ∀ e ∈ E, (if Active e x then - upward e * height e x else 0) = 0 := fun e he =>
      if_neg fun k => by simpa using hE e he k
    rw [List.map_congr_left z]
    simp [gaps]
  · have b : ∀ e ∈ E, ((gaps Y).map fun v => if Active e x ∧ height e x < mid v then upward e * (v.2 - v.1) else 0).sum =
        (if Active e x then - upward e * height e x else 0) + Y.getLast ne * if Active e x then upward e else 0 := by
      intro e he
      by_cases k : Active e x
      · simp only [k, true_and, if_true]
        rw [List.map_congr_left (g := fun v => upward e * if height e x < mid v then id v.2 - id v.1 else 0)
          (fun v _ => by split_ifs <;> simp), mul_sum, gaps_from id hY (hE e he k)]
        simp only [id]
        ring
      · simp [k]
    rw [List.map_congr_left b, List.sum_map_add, mul_sum, upward_sum h g c, mul_zero, add_zero]

/-- the area to the left and right of an edge, above the axis -/
theorem column_eq {e : Segment} {X : List ℚ} (hX : X.Pairwise (· < ·)) (h1 : e.lo.x ∈ X) (h2 : e.hi.x ∈ X) :
    ((gaps X).map fun u => (u.2 - u.1) * if Active e (mid u) then height e (mid u) else 0).sum =
      (e.hi.x - e.lo.x) * (e.lo.y + e.hi.y) / 2 := by
  have d := lo_x_le_hi_x e
  set k := (e.hi.y - e.lo.y) / (e.hi.x - e.lo.x) with hk
  let F : ℚ → ℚ := fun x => e.lo.y * x + k * (x - e.lo.x) ^ 2 / 2
  have a : ∀ u ∈ gaps X, ((u.2 - u.1) * if Active e (mid u) then height e (mid u) else 0) =
      if e.lo.x < mid u ∧ mid u < e.hi.x then F u.2 - F u.1 else 0 := by
    intro u _
    by_cases q : Active e (mid u)
    · rw [if_pos q, if_pos (show e.lo.x < mid u ∧ mid u < e.hi.x from q)]
      unfold height
      rw [← hk]
      simp only [F, mid]
      ring
    · rw [if_neg q, if_neg (show ¬ (e.lo.x < mid u ∧ mid u < e.hi.x) from q), mul_zero]
  rw [List.map_congr_left a, gaps_between F hX h1 h2 d]
  simp only [F]
  rcases eq_or_lt_of_le d with q | q
  · rw [q]
    ring
  · have n : e.hi.x - e.lo.x ≠ 0 := by linarith
    have r : k * (e.hi.x - e.lo.x) = e.hi.y - e.lo.y := div_mul_cancel₀ _ n
    linear_combination (e.hi.x - e.lo.x) / 2 * r

/-- the area by trapezoids -/
def trapezoids (E : List Segment) : ℚ := (E.map fun e => - (e.stop.x - e.start.x) * (e.start.y + e.stop.y) / 2).sum

theorem trapezoids_eq {E : List Segment} {X : List ℚ} (hX : X.Pairwise (· < ·)) (hE : ∀ e ∈ E, e.start.x ∈ X ∧ e.stop.x ∈ X) :
    trapezoids E = ((gaps X).map fun u => (u.2 - u.1) * (E.map fun e => if Active e (mid u) then
      - upward e * height e (mid u) else 0).sum).sum := by
  have a : ∀ u ∈ gaps X, ((u.2 - u.1) * (E.map fun e => if Active e (mid u) then - upward e * height e (mid u) else 0).sum) =
      (E.map fun e => - upward e * ((u.2 - u.1) * if Active e (mid u) then height e (mid u) else 0)).sum := by
    intro u _
    rw [← mul_sum]
    congr 1
    refine List.map_congr_left fun e _ => ?_
    split_ifs <;> ring
  rw [List.map_congr_left a, sum_swap]
  unfold trapezoids
  congr 1
  refine List.map_congr_left fun e he => ?_
  obtain ⟨h1, h2⟩ := hE e he
  rw [mul_sum]
  unfold upward
  rcases lo_start_or e with ⟨c, d⟩ | ⟨c, d⟩
  · rw [column_eq hX (by rwa [c]) (by rwa [d]), c, d]
    have := Segment.lo_le_hi e
    rw [c, d] at this
    rcases eq_or_lt_of_le this with k | k
    · rw [k]
      ring
    · rw [if_pos k]
      ring
  · rw [column_eq hX (by rwa [c]) (by rwa [d]), c, d]
    have := Segment.lo_le_hi e
    rw [c, d] at this
    rw [if_neg (not_lt.2 this)]
    ring

end Clipping

import Verif.Lemmas.Region.Shrink

/-!
# No collinear vertices of a simple contour are left
-/

namespace Clipping

open Sweep

/-- the index before -/
def prevIdx (L j : ℕ) : ℕ := if j = 0 then L - 1 else j - 1

/-- the index after -/
def nextIdx (L j : ℕ) : ℕ := if j + 1 = L then 0 else j + 1

/-- The vertex is on the line through its neighbours. -/
def Flat (vs : List Point) (j : ℕ) : Prop :=
  cross (vertexAt vs (prevIdx vs.length j)) (vertexAt vs j) (vertexAt vs (nextIdx vs.length j)) = 0

instance (vs : List Point) (j : ℕ) : Decidable (Flat vs j) := by unfold Flat; infer_instance

def marks (vs : List Point) : List Bool := (List.range vs.length).map fun j => decide (Flat vs j)

theorem marks_length (vs : List Point) : (marks vs).length = vs.length := by simp [marks]

theorem vertexAt_mod {vs : List Point} {j n : ℕ} (_ : j < vs.length) (h : n % vs.length = j) : vtx ⟨vs⟩ n = vertexAt vs j := by
  unfold vtx; simp only [h]

theorem flat_iff {vs : List Point} (h3 : 2 ≤ vs.length) {n j : ℕ} (h : (n + 1) % vs.length = j) :
    Flat vs j ↔ cross (vtx ⟨vs⟩ n) (vtx ⟨vs⟩ (n + 1)) (vtx ⟨vs⟩ (n + 2)) = 0 := by
  have hL : 0 < vs.length := by omega
  have hj : j < vs.length := h ▸ Nat.mod_lt _ hL
  unfold Flat
  have e : n + 1 = vs.length * ((n + 1) / vs.length) + j := by rw [← h]; exact (Nat.div_add_mod _ _).symm
  set q := (n + 1) / vs.length with hq
  set L := vs.length with hLd
  rw [vertexAt_mod (n := n + 1) hj h]
  have a1 : vtx ⟨vs⟩ n = vertexAt vs (prevIdx L j) := by
    unfold prevIdx
    split
    · rename_i h0
      subst h0
      refine vertexAt_mod (by omega) ?_
      have hq' : 0 < q := by rcases Nat.eq_zero_or_pos q with h | h; · rw [h] at e; omega
                             · exact h
      obtain ⟨r, hr⟩ : ∃ r, q = r + 1 := ⟨q - 1, by omega⟩
      have : n = L * r + (L - 1) := by rw [hr, Nat.mul_succ] at e; omega
      rw [this, ← hLd, Nat.mul_add_mod]
      exact Nat.mod_eq_of_lt (by omega)
    · refine vertexAt_mod (by omega) ?_
      have : n = L * q + (j - 1) := by omega
      rw [this, ← hLd, Nat.mul_add_mod]
      exact Nat.mod_eq_of_lt (by omega)
  have a2 : vtx ⟨vs⟩ (n + 2) = vertexAt vs (nextIdx L j) := by
    unfold nextIdx
    split
    · rename_i h0
      refine vertexAt_mod (by omega) ?_
      have : n + 2 = L * (q + 1) + 0 := by rw [Nat.mul_succ]; omega
      rw [this, ← hLd, Nat.mul_add_mod]
      exact Nat.mod_eq_of_lt (by omega)
    · refine vertexAt_mod (by omega) ?_
      have : n + 2 = L * q + (j + 1) := by omega
      rw [this, ← hLd, Nat.mul_add_mod]
      exact Nat.mod_eq_of_lt (by omega)
  rw [a1, a2]

theorem marks_getD {vs : List Point} {j : ℕ} (hj : j < vs.length) : (marks vs)[j]? = some (decide (Flat vs j)) := by
  unfold marks; simp [hj]

theorem eraseIdx_vertexAt {vs : List Point} {i j : ℕ} (_ : i < vs.length) (_ : j < vs.length - 1) :
    vertexAt (vs.eraseIdx i) j = vertexAt vs (if j < i then j else j + 1) := by
  unfold vertexAt
  rw [List.getD_eq_getElem?_getD, List.getD_eq_getElem?_getD, List.getElem?_eraseIdx]
  split <;> rfl

theorem SimpleContour.flat_data {vs : List Point} (h : SimpleContour ⟨vs⟩) {i : ℕ} (hi : i < vs.length) (hf : Flat vs i) :
    4 ≤ vs.length ∧ vertexAt vs i ∈ (Segment.mk (vertexAt vs (prevIdx vs.length i)) (vertexAt vs (nextIdx vs.length i))).pts := by
  have h3 : 3 ≤ vs.length := h.three
  have hm : (i + vs.length - 1 + 1) % vs.length = i := by
    rw [show i + vs.length - 1 + 1 = i + vs.length by omega, Nat.add_mod_right, Nat.mod_eq_of_lt hi]
  have hf' := hf
  rw [flat_iff (by omega) hm] at hf'
  set n := i + vs.length - 1 with hn
  have dec : ∃ a b c rest, vs.rotate n = a :: b :: c :: rest := by
    have : 3 ≤ (vs.rotate n).length := by rw [List.length_rotate]; exact h3
    match vs.rotate n, this with
    | a :: b :: c :: rest, _ => exact ⟨a, b, c, rest, rfl⟩
  obtain ⟨a, b, c, rest, hr⟩ := dec
  have hs : SimpleContour ⟨a :: b :: c :: rest⟩ := h.rotated ⟨n, hr⟩
  have g : ∀ j (hj : j < 3), vtx ⟨vs⟩ (n + j) = (a :: b :: c :: rest)[j]'(by simp; omega) := by
    intro j hj
    rw [add_comm, ← vtx_rotate, vtx_of_lt (by simp only [List.length_rotate]; omega)]
    simp only [hr]
  have g0 := g 0 (by omega)
  have g1 := g 1 (by omega)
  have g2 := g 2 (by omega)
  simp only [List.getElem_cons_zero, List.getElem_cons_succ, add_zero] at g0 g1 g2
  rw [g0, g1, g2] at hf'
  obtain ⟨m1, m2⟩ := hs.middle hf'
  have hl : (vs.rotate n).length = (a :: b :: c :: rest).length := by rw [hr]
  rw [List.length_rotate] at hl
  simp only [List.length_cons] at hl
  have : 0 < rest.length := List.length_pos_iff.2 m2
  refine ⟨by omega, ?_⟩
  have e1 : vertexAt vs i = b := by rw [← g1]; exact (vertexAt_mod hi hm).symm
  have e0 : vertexAt vs (prevIdx vs.length i) = a := by
    rw [← g0]
    unfold prevIdx
    split
    · refine (vertexAt_mod (by omega) ?_).symm
      rw [show n = vs.length - 1 by omega]; exact Nat.mod_eq_of_lt (by omega)
    · refine (vertexAt_mod (by omega) ?_).symm
      rw [show n = i - 1 + vs.length by omega, Nat.add_mod_right]; exact Nat.mod_eq_of_lt (by omega)
  have e2 : vertexAt vs (nextIdx vs.length i) = c := by
    rw [← g2]
    unfold nextIdx
    split
    · refine (vertexAt_mod (by omega) ?_).symm
      rw [show n + 2 = 0 + vs.length + vs.length by omega, Nat.add_mod_right, Nat.add_mod_right]
      exact Nat.mod_eq_of_lt (by omega)
    · refine (vertexAt_mod (by omega) ?_).symm
      rw [show n + 2 = i + 1 + vs.length by omega, Nat.add_mod_right]; exact Nat.mod_eq_of_lt (by omega)
  rw [e0, e1, e2]; exact m1

theorem nodup_vertexAt {vs : List Point} (h : vs.Nodup) {i j : ℕ} (hi : i < vs.length) (hj : j < vs.length) (hne : i ≠ j) :
    vertexAt vs i ≠ vertexAt vs j := by
  unfold vertexAt
  rw [List.getD_eq_getElem?_getD, List.getD_eq_getElem?_getD, List.getElem?_eq_getElem hi, List.getElem?_eq_getElem hj]
  simp only [Option.getD_some]
  intro e
  exact hne ((h.getElem_inj_iff).1 e)

theorem cross_replace_left {a b c d : Point} (hb : b ∈ (Segment.mk a c).pts) (hbc : b ≠ c) :
    cross a c d = 0 ↔ cross b c d = 0 := by
  obtain ⟨t, t0, t1, tx, ty⟩ := hb
  simp only at tx ty
  have e : cross b c d = (1 - t) * cross a c d := by unfold cross; rw [tx, ty]; ring
  have ht : 1 - t ≠ 0 := by
    intro h
    apply hbc
    have : t = 1 := by linarith
    apply Point.ext' <;> [rw [tx, this]; rw [ty, this]] <;> ring
  rw [e, mul_eq_zero, or_iff_right ht]

theorem cross_replace_right {a b c d : Point} (hb : b ∈ (Segment.mk a c).pts) (hbc : b ≠ a) :
    cross d a c = 0 ↔ cross d a b = 0 := by
  have := cross_replace_left (d := d) (Segment.pts_swap a c ▸ hb : b ∈ (Segment.mk c a).pts) hbc
  rw [cross_swap, neg_eq_zero, cross_rot, cross_rot, this, cross_swap, neg_eq_zero, cross_rot, cross_rot]

theorem prevIdx_spec (L j : ℕ) : (j = 0 ∧ prevIdx L j = L - 1) ∨ (j ≠ 0 ∧ prevIdx L j = j - 1) := by
  unfold prevIdx; split
  · left; constructor <;> [assumption; rfl]
  · right; constructor <;> [assumption; rfl]

theorem nextIdx_spec (L j : ℕ) : (j + 1 = L ∧ nextIdx L j = 0) ∨ (j + 1 ≠ L ∧ nextIdx L j = j + 1) := by
  unfold nextIdx; split
  · left; constructor <;> [assumption; rfl]
  · right; constructor <;> [assumption; rfl]

theorem skip_spec (i j : ℕ) : (j < i ∧ (if j < i then j else j + 1) = j) ∨ (i ≤ j ∧ (if j < i then j else j + 1) = j + 1) := by
  split
  · left; constructor <;> [assumption; rfl]
  · right; constructor <;> [omega; rfl]

theorem skip_arith {L i j : ℕ} (hL : 4 ≤ L) (hi : i < L) (hj : j < L - 1) {j' p n : ℕ}
    (hj' : (if j < i then j else j + 1) = j')
    (hp : (if prevIdx (L - 1) j < i then prevIdx (L - 1) j else prevIdx (L - 1) j + 1) = p)
    (hn : (if nextIdx (L - 1) j < i then nextIdx (L - 1) j else nextIdx (L - 1) j + 1) = n) :
    (prevIdx L j' = i ∧ p = prevIdx L i ∧ n = nextIdx L j' ∧ nextIdx L i = j') ∨
    (nextIdx L j' = i ∧ p = prevIdx L j' ∧ n = nextIdx L i ∧ prevIdx L i = j') ∨
    (p = prevIdx L j' ∧ n = nextIdx L j') := by
  have a1 := skip_spec i j
  have a2 := skip_spec i (prevIdx (L - 1) j)
  have a3 := skip_spec i (nextIdx (L - 1) j)
  have a4 := prevIdx_spec (L - 1) j
  have a5 := nextIdx_spec (L - 1) j
  rw [hj'] at a1
  rw [hp] at a2
  rw [hn] at a3
  have a6 := prevIdx_spec L j'
  have a7 := nextIdx_spec L j'
  have a8 := prevIdx_spec L i
  have a9 := nextIdx_spec L i
  clear hj' hp hn
  generalize prevIdx (L - 1) j = x1 at *
  generalize nextIdx (L - 1) j = x2 at *
  generalize prevIdx L j' = x3 at *
  generalize nextIdx L j' = x4 at *
  generalize prevIdx L i = x5 at *
  generalize nextIdx L i = x6 at *
  by_cases c1 : x3 = i
  · left; omega
  · by_cases c2 : x4 = i
    · right; left; omega
    · right; right; omega

/-- Dropping a flat vertex does not change which of the others are flat. -/
theorem SimpleContour.flat_erase {vs : List Point} (h : SimpleContour ⟨vs⟩) {i : ℕ} (hi : i < vs.length) (hf : Flat vs i)
    {j : ℕ} (hj : j < vs.length - 1) : Flat (vs.eraseIdx i) j ↔ Flat vs (if j < i then j else j + 1) := by
  obtain ⟨h4, hb⟩ := h.flat_data hi hf
  have hl : (vs.eraseIdx i).length = vs.length - 1 := List.length_eraseIdx_of_lt hi
  set L := vs.length with hL
  unfold Flat
  rw [hl]
  have q1 : prevIdx (L - 1) j < L - 1 := by unfold prevIdx; split <;> omega
  have q2 : nextIdx (L - 1) j < L - 1 := by unfold nextIdx; split <;> omega
  rw [eraseIdx_vertexAt hi hj, eraseIdx_vertexAt hi q1, eraseIdx_vertexAt hi q2]
  have hne : ∀ k, k < L → k ≠ i → vertexAt vs i ≠ vertexAt vs k := fun k hk hki => nodup_vertexAt h.nodup hi hk hki.symm
  have hj' : (if j < i then j else j + 1) < L ∧ (if j < i then j else j + 1) ≠ i := by
    rcases skip_spec i j with ⟨h1, h2⟩ | ⟨h1, h2⟩ <;> rw [h2] <;> omega
  rcases skip_arith h4 hi hj rfl rfl rfl with ⟨c1, c2, c3, c4⟩ | ⟨c1, c2, c3, c4⟩ | ⟨c2, c3⟩
  · rw [c2, c3, c1]
    rw [c4] at hb
    exact cross_replace_left hb (hne _ hj'.1 hj'.2)
  · rw [c2, c3, c1]
    rw [c4] at hb
    exact cross_replace_right hb (hne _ hj'.1 hj'.2)
  · rw [c2, c3]

theorem SimpleContour.marks_erase {vs : List Point} (h : SimpleContour ⟨vs⟩) {i : ℕ} (hi : i < vs.length) (hf : Flat vs i) :
    SimpleContour ⟨vs.eraseIdx i⟩ ∧ marks (vs.eraseIdx i) = (marks vs).eraseIdx i := by
  have h3 : 3 ≤ vs.length := h.three
  have hl : (vs.eraseIdx i).length = vs.length - 1 := List.length_eraseIdx_of_lt hi
  have hm : (i + vs.length - 1 + 1) % vs.length = i := by
    rw [show i + vs.length - 1 + 1 = i + vs.length by omega, Nat.add_mod_right, Nat.mod_eq_of_lt hi]
  constructor
  · have := dropsVertex_of_vtx h3 ((flat_iff (by omega) hm).1 hf)
    rw [hm] at this
    exact (h.drop this).1
  · refine List.ext_getElem? fun j => ?_
    rw [List.getElem?_eraseIdx]
    by_cases hj : j < vs.length - 1
    · rw [marks_getD (by omega)]
      have := h.flat_erase hi hf hj
      split
      · rename_i hlt
        rw [if_pos hlt] at this
        rw [marks_getD (by omega)]
        simp only [this]
      · rename_i hlt
        rw [if_neg hlt] at this
        rw [marks_getD (by omega)]
        simp only [this]
    · rw [List.getElem?_eq_none (by rw [marks_length]; omega)]
      split
      · rw [List.getElem?_eq_none (by rw [marks_length]; omega)]
      · rw [List.getElem?_eq_none (by rw [marks_length]; omega)]

theorem SimpleContour.three_marks {vs : List Point} (h : SimpleContour ⟨vs⟩) (hm : true ∈ marks vs) : 4 ≤ vs.length := by
  unfold marks at hm
  obtain ⟨i, hi, hf⟩ := List.mem_map.1 hm
  exact (h.flat_data (List.mem_range.1 hi) (of_decide_eq_true hf)).1

/-! ## The code -/

theorem first_cond {vs : List Point} {k : ℕ} (h3 : 3 ≤ vs.length) (hk : 1 ≤ k) (hkL : k < vs.length) {j : ℕ}
    (hj : (vs.length - k + 1) % vs.length = j) :
    (orientation (pyGet vs (-k + 1)) (pyGet vs (-k + 2)) (pyGet vs (-k)) = .collinear ↔ Flat vs j) ∧
      pyDel vs (-k + 1) = vs.eraseIdx j := by
  constructor
  · rw [orientation_col, pyGet_eq (n := vs.length - k + 1) (by omega) (by omega) (by omega),
      pyGet_eq (n := vs.length - k + 2) (by omega) (by omega) (by omega),
      pyGet_eq (n := vs.length - k) (by omega) (by omega) (by omega), ← cross_rot, flat_iff (by omega) hj]
  · rw [pyDel_eq (n := vs.length - k + 1) (by omega) (by omega) (by omega), hj]

theorem second_cond {vs : List Point} {index : ℕ} (h3 : 3 ≤ vs.length) (hkL : index < vs.length) {j : ℕ}
    (hj : j = prevIdx vs.length index) :
    (orientation (pyGet vs (index - 1)) (pyGet vs (index - 2)) (pyGet vs index) = .collinear ↔ Flat vs j) ∧
      pyDel vs (index - 1) = vs.eraseIdx j := by
  have hm : (vs.length + index - 1) % vs.length = j := by
    rw [hj]
    unfold prevIdx
    split
    · rename_i h; subst h; exact Nat.mod_eq_of_lt (by omega)
    · rw [show vs.length + index - 1 = index - 1 + vs.length by omega, Nat.add_mod_right]
      exact Nat.mod_eq_of_lt (by omega)
  constructor
  · rw [orientation_col, pyGet_eq (n := vs.length + index - 1) (by omega) (by omega) (by omega),
      pyGet_eq (n := vs.length + index - 2) (by omega) (by omega) (by omega),
      pyGet_eq (n := vs.length + index) (by omega) (by omega) (by omega), cross_swap, neg_eq_zero,
      flat_iff (n := vs.length + index - 2) (by omega) (by rw [← hm]; congr 1; omega),
      show vs.length + index - 2 + 1 = vs.length + index - 1 by omega,
      show vs.length + index - 2 + 2 = vs.length + index by omega]
  · rw [pyDel_eq (n := vs.length + index - 1) (by omega) (by omega) (by omega), hm]

theorem flat_of_marks {vs : List Point} {pre suf : List Bool} {x : Bool} (h : marks vs = pre ++ x :: suf) :
    pre.length < vs.length ∧ (Flat vs pre.length ↔ x = true) := by
  have hl : pre.length < vs.length := by rw [← marks_length, h]; simp
  refine ⟨hl, ?_⟩
  have := marks_getD hl
  rw [h, List.getElem?_append_right (le_refl _)] at this
  simp only [Nat.sub_self, List.getElem?_cons_zero, Option.some.injEq] at this
  rw [this, decide_eq_true_iff]

/-- a step of the first pass, but the last one -/
theorem SimpleContour.firstInner {vs : List Point} (h : SimpleContour ⟨vs⟩) {k : ℕ} (hk : 2 ≤ k) {a b x : Bool}
    {clean suf : List Bool} (hm : marks vs = a :: b :: clean ++ x :: suf) (hc : true ∉ clean) (hs : suf.length + 2 = k)
    {fuel : ℕ} (hf : vs.length ≤ fuel) :
    SimpleContour ⟨shrinkFirstInner k fuel vs⟩ ∧ ∃ clean', true ∉ clean' ∧
      marks (shrinkFirstInner k fuel vs) = a :: b :: clean' ++ suf := by
  have h3 : 3 ≤ vs.length := h.three
  have hl : vs.length = clean.length + suf.length + 3 := by rw [← marks_length, hm]; simp; omega
  obtain ⟨fuel, rfl⟩ : ∃ f, fuel = f + 1 := ⟨fuel - 1, by omega⟩
  obtain ⟨p1, p2⟩ := flat_of_marks (pre := a :: b :: clean) (x := x) (suf := suf) (by simpa using hm)
  have hj : (vs.length - k + 1) % vs.length = (a :: b :: clean).length := by
    rw [Nat.mod_eq_of_lt (by omega)]; simp; omega
  obtain ⟨q1, q2⟩ := first_cond (vs := vs) h3 (by omega : 1 ≤ k) (by omega) hj
  simp only [shrinkFirstInner]
  simp only [q1, p2, q2]
  cases x with
  | false =>
    simp only [Bool.false_eq_true, and_false, if_false]
    exact ⟨h, clean ++ [false], by simp [hc], by simp [hm]⟩
  | true =>
    rw [if_pos ⟨by rw [max_eq_right hk]; omega, rfl⟩]
    obtain ⟨s1, s2⟩ := h.marks_erase p1 (p2.2 rfl)
    set ws := vs.eraseIdx (a :: b :: clean).length with hw
    have s2' : marks ws = a :: b :: clean ++ suf := by
      rw [s2, hm, List.eraseIdx_append_of_length_le (le_refl _), Nat.sub_self]
      simp
    have hwl : ws.length = clean.length + suf.length + 2 := by rw [← marks_length, s2']; simp
    -- the loop stops
    have stop : shrinkFirstInner k fuel ws = ws := by
      cases fuel with
      | zero => rfl
      | succ fuel =>
        simp only [shrinkFirstInner]
        rw [if_neg]
        rintro ⟨g1, g2⟩
        have g1' : k < ws.length := (le_max_right _ _).trans_lt g1
        have g3 : 3 ≤ ws.length := s1.three
        have hj' : (ws.length - k + 1) % ws.length = clean.length + 1 := by
          rw [Nat.mod_eq_of_lt (by omega)]; omega
        rw [(first_cond g3 (by omega) g1' hj').1] at g2
        obtain ⟨y, ys, hy⟩ : ∃ ys y, clean = ys ++ [y] := by
          have : clean ≠ [] := by rintro rfl; simp at hwl; omega
          exact ⟨_, _, (List.dropLast_append_getLast this).symm⟩
        obtain ⟨r1, r2⟩ := flat_of_marks (vs := ws) (pre := a :: b :: y) (x := ys) (suf := suf) (by rw [s2', hy]; simp)
        have : (a :: b :: y).length = clean.length + 1 := by rw [hy]; simp
        rw [this] at r2
        rw [r2] at g2
        rw [hy, g2] at hc
        simp at hc
    rw [stop]
    exact ⟨s1, clean, hc, s2'⟩

theorem SimpleContour.first {k : ℕ} {vs : List Point} (h : SimpleContour ⟨vs⟩) {a b : Bool}
    {clean suf : List Bool} (hm : marks vs = a :: b :: clean ++ suf) (hc : true ∉ clean) (hs : suf.length + 1 = k) :
    SimpleContour ⟨shrinkFirst k vs⟩ ∧ (true ∉ marks (shrinkFirst k vs) ∨
      ∃ clean', true ∉ clean' ∧ marks (shrinkFirst k vs) = false :: true :: clean') := by
  induction k generalizing vs clean suf with
  | zero => omega
  | succ k ih =>
    simp only [shrinkFirst]
    cases suf with
    | cons x suf =>
      obtain ⟨s1, clean', hc', hm'⟩ := h.firstInner (k := k + 1) (by simp at hs; omega) hm hc (by simp at hs; omega)
        (le_refl _)
      exact ih s1 hm' hc' (by simpa using hs)
    | nil =>
      have hk : k = 0 := by simpa using hs.symm
      subst hk
      simp only [shrinkFirst, Nat.zero_add]
      rw [List.append_nil] at hm
      -- the last step looks at the first vertex
      have cond : ∀ {ws : List Point}, SimpleContour ⟨ws⟩ →
          (orientation (pyGet ws (-((1 : ℕ) : ℤ) + 1)) (pyGet ws (-((1 : ℕ) : ℤ) + 2)) (pyGet ws (-((1 : ℕ) : ℤ))) = .collinear ↔
            Flat ws 0) ∧ pyDel ws (-((1 : ℕ) : ℤ) + 1) = ws.eraseIdx 0 := by
        intro ws hw
        have h3 : 3 ≤ ws.length := hw.three
        refine first_cond h3 (le_refl 1) (by omega) ?_
        rw [show ws.length - 1 + 1 = ws.length by omega, Nat.mod_self]
      have stepF : ∀ {ws : List Point} {m : List Bool} {fuel : ℕ}, SimpleContour ⟨ws⟩ → marks ws = false :: m →
          shrinkFirstInner 1 fuel ws = ws := by
        intro ws m fuel hw hm
        cases fuel with
        | zero => rfl
        | succ fuel =>
          simp only [shrinkFirstInner]
          rw [if_neg]
          rw [(cond hw).1]
          intro hn
          exact absurd ((flat_of_marks (pre := []) hm).2.1 hn.2) (by simp)
      have stepT : ∀ {ws : List Point} {m : List Bool} {fuel : ℕ}, SimpleContour ⟨ws⟩ → marks ws = true :: m →
          SimpleContour ⟨ws.eraseIdx 0⟩ ∧ marks (ws.eraseIdx 0) = m ∧
          shrinkFirstInner 1 (fuel + 1) ws = shrinkFirstInner 1 fuel (ws.eraseIdx 0) := by
        intro ws m fuel hw hm
        obtain ⟨p1, p2⟩ := flat_of_marks (pre := []) hm
        obtain ⟨s1, s2⟩ := hw.marks_erase p1 (p2.2 rfl)
        have h3 : 3 ≤ ws.length := hw.three
        refine ⟨s1, by rw [← List.length_nil (α := Bool), s2, hm]; rfl, ?_⟩
        conv_lhs => rw [shrinkFirstInner]
        rw [if_pos]
        · rw [(cond hw).2]
        · rw [(cond hw).1]
          exact ⟨by omega, p2.2 rfl⟩
      have stepC : ∀ {ws : List Point} {fuel : ℕ}, SimpleContour ⟨ws⟩ → true ∉ marks ws →
          shrinkFirstInner 1 fuel ws = ws := by
        intro ws fuel hw hm
        have h3 : 3 ≤ ws.length := hw.three
        cases hms : marks ws with
        | nil =>
          have := marks_length ws
          rw [hms] at this
          simp at this
          omega
        | cons m ms =>
          cases m with
          | false => exact stepF hw hms
          | true => rw [hms] at hm; simp at hm
      have hc' : false :: clean = false :: clean := rfl
      obtain ⟨f, hf⟩ : ∃ f, vs.length = f + 1 + 1 := ⟨vs.length - 2, by have : 3 ≤ vs.length := h.three; omega⟩
      cases a with
      | false =>
        rw [stepF h hm]
        refine ⟨h, ?_⟩
        cases b with
        | false => left; rw [hm]; simpa using hc
        | true => right; exact ⟨clean, hc, hm⟩
      | true =>
        rw [hf]
        obtain ⟨s1, s2, s3⟩ := stepT (fuel := f + 1) h hm
        rw [s3]
        cases b with
        | false =>
          rw [stepF s1 s2]
          exact ⟨s1, Or.inl (by rw [s2]; simpa using hc)⟩
        | true =>
          obtain ⟨t1, t2, t3⟩ := stepT (fuel := f) s1 s2
          rw [t3, stepC t1 (by rw [t2]; exact hc)]
          exact ⟨t1, Or.inl (by rw [t2]; exact hc)⟩

theorem not_flat {vs : List Point} (hm : true ∉ marks vs) {j : ℕ} (hj : j < vs.length) : ¬ Flat vs j := by
  intro hf
  apply hm
  unfold marks
  exact List.mem_map.2 ⟨j, List.mem_range.2 hj, decide_eq_true hf⟩

theorem SimpleContour.second_clean {vs : List Point} (h : SimpleContour ⟨vs⟩) (hm : true ∉ marks vs) (fuel index : ℕ) :
    shrinkSecond fuel index vs = vs := by
  have h3 : 3 ≤ vs.length := h.three
  induction fuel generalizing index with
  | zero => rfl
  | succ fuel ih =>
    simp only [shrinkSecond]
    split
    · rename_i hi
      have : shrinkSecondInner index vs.length vs = vs := by
        generalize vs.length = f
        cases f with
        | zero => rfl
        | succ f =>
          simp only [shrinkSecondInner]
          rw [if_neg]
          rintro ⟨-, g⟩
          rw [(second_cond h3 hi rfl).1] at g
          exact not_flat hm (by unfold prevIdx; split <;> omega) g
      rw [this]
      exact ih _
    · rfl

theorem SimpleContour.shrunk {vs : List Point} (h : SimpleContour ⟨vs⟩) : true ∉ marks (shrinkCollinearVertices vs) := by
  have h3 : 3 ≤ vs.length := h.three
  unfold shrinkCollinearVertices
  simp only
  obtain ⟨a, b, suf, hm⟩ : ∃ a b suf, marks vs = a :: b :: suf := by
    have : 2 ≤ (marks vs).length := by rw [marks_length]; omega
    match marks vs, this with
    | a :: b :: suf, _ => exact ⟨a, b, suf, rfl⟩
  obtain ⟨s1, s2⟩ := h.first (k := vs.length - 1) (clean := []) (suf := suf) (by simpa using hm) (by simp)
    (by have := marks_length vs; rw [hm] at this; simp at this; omega)
  set ws := shrinkFirst (vs.length - 1) vs with hws
  rcases s2 with s2 | ⟨clean, hc, hm⟩
  · rw [s1.second_clean s2]; exact s2
  · have h4 := s1.three_marks (by rw [hm]; simp)
    obtain ⟨f, hf⟩ : ∃ f, ws.length = f + 1 + 1 + 1 := ⟨ws.length - 3, by omega⟩
    have nf : ∀ j, j < ws.length → j ≠ 1 → ¬ Flat ws j := by
      intro j hj h1 hfl
      have := marks_getD hj
      rw [hm, decide_eq_true hfl] at this
      match j, h1 with
      | 0, _ => simp at this
      | j + 2, _ =>
        simp only [List.getElem?_cons_succ] at this
        exact hc (List.mem_of_getElem? this)
    have inner : ∀ index, index < ws.length → index ≠ 2 → shrinkSecondInner index ws.length ws = ws := by
      intro index hi h2
      rw [hf]
      · simp only [shrinkSecondInner]
        rw [if_neg]
        rintro ⟨g0, g⟩
        have h3' : 3 ≤ ws.length := s1.three
        have hi' : index < ws.length := (le_max_right _ _).trans_lt g0
        rw [(second_cond h3' hi' rfl).1] at g
        exact nf _ (by unfold prevIdx; split <;> omega) (by unfold prevIdx; split <;> omega) g
    have h0 := inner 0 (by omega) (by omega)
    have h1 := inner 1 (by omega) (by omega)
    rw [hf]
    rw [shrinkSecond, if_pos (by omega), h0, shrinkSecond, if_pos (by omega), h1, shrinkSecond, if_pos (by omega)]
    obtain ⟨p1, p2⟩ := flat_of_marks (pre := [false]) (by simpa using hm)
    obtain ⟨q1, q2⟩ := second_cond (vs := ws) (index := 0 + 1 + 1) (j := 1) (by omega) (by omega) (by simp [prevIdx])
    have fl : Flat ws 1 := p2.2 rfl
    obtain ⟨t1, t2⟩ := s1.marks_erase (i := 1) p1 fl
    have t2' : marks (ws.eraseIdx 1) = false :: clean := by
      rw [t2, hm]; rfl
    have cl : true ∉ marks (ws.eraseIdx 1) := by rw [t2']; simpa using hc
    have t3 : 3 ≤ (ws.eraseIdx 1).length := t1.three
    have e : shrinkSecondInner (0 + 1 + 1) ws.length ws = ws.eraseIdx 1 := by
      rw [hf, shrinkSecondInner, if_pos ⟨by omega, q1.2 fl⟩, q2, shrinkSecondInner, if_neg]
      rintro ⟨g0, g⟩
      rw [(second_cond t3 (by omega) rfl).1] at g
      exact not_flat cl (by simp [prevIdx]; omega) g
    rw [e, t1.second_clean cl]
    exact cl

end Clipping

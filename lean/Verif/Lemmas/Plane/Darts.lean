import Verif.Lemmas.Plane.Theta
import Mathlib.Data.Finset.Card

/-!
# Directed edges of plane graphs
-/

namespace Clipping

/-- Edges of a plane graph, each in both directions: `key i` is the start of the edge `i`, `opp i` is the same edge in
the other direction. -/
structure Darts where
  n : ℕ
  key : ℕ → Point
  opp : ℕ → ℕ
  opp_lt : ∀ i < n, opp i < n
  opp_opp : ∀ i < n, opp (opp i) = i
  ne : ∀ i < n, key i ≠ key (opp i)
  ends : ∀ i < n, ∀ j < n, i ≠ j → opp i ≠ j → ∀ q, q ∈ (Segment.mk (key i) (key (opp i))).pts →
    q ∈ (Segment.mk (key j) (key (opp j))).pts →
      (Segment.mk (key i) (key (opp i))).IsEnd q ∧ (Segment.mk (key j) (key (opp j))).IsEnd q

namespace Darts

variable (D : Darts)

/-- the segment of an edge -/
def seg (i : ℕ) : Segment := ⟨D.key i, D.key (D.opp i)⟩

/-- the direction of an edge -/
def dir (i : ℕ) : Point := vec (D.key i) (D.key (D.opp i))

variable {D}

theorem seg_opp {i : ℕ} (hi : i < D.n) : D.seg (D.opp i) = (D.seg i).swap := by
  unfold seg; rw [D.opp_opp i hi]; rfl

theorem opp_ne {i : ℕ} (hi : i < D.n) : D.opp i ≠ i := fun h => D.ne i hi (by rw [h])

theorem opp_inj {i j : ℕ} (hi : i < D.n) (hj : j < D.n) (h : D.opp i = D.opp j) : i = j := by
  rw [← D.opp_opp i hi, h, D.opp_opp j hj]

theorem proper {i : ℕ} (hi : i < D.n) : (D.seg i).Proper := D.ne i hi

theorem seg_ends {i j : ℕ} (hi : i < D.n) (hj : j < D.n) (h : i ≠ j) (h' : D.opp i ≠ j) {q : Point}
    (h1 : q ∈ (D.seg i).pts) (h2 : q ∈ (D.seg j).pts) : (D.seg i).IsEnd q ∧ (D.seg j).IsEnd q :=
  D.ends i hi j hj h h' q h1 h2

/-- A set of edges with both directions of each. -/
structure Closed (D : Darts) (F : Finset ℕ) : Prop where
  lt : ∀ i ∈ F, i < D.n
  opp : ∀ i ∈ F, D.opp i ∈ F

/-- the edges, in one direction only -/
noncomputable def edges (D : Darts) (F : Finset ℕ) : List Segment :=
  (F.filter fun i => D.key i < D.key (D.opp i)).toList.map D.seg

theorem mem_edges {F : Finset ℕ} {g : Segment} :
    g ∈ D.edges F ↔ ∃ i ∈ F, D.key i < D.key (D.opp i) ∧ D.seg i = g := by
  unfold edges
  rw [List.mem_map]
  constructor
  · rintro ⟨i, hi, rfl⟩
    rw [Finset.mem_toList, Finset.mem_filter] at hi
    exact ⟨i, hi.1, hi.2, rfl⟩
  · rintro ⟨i, h1, h2, rfl⟩
    exact ⟨i, by rw [Finset.mem_toList, Finset.mem_filter]; exact ⟨h1, h2⟩, rfl⟩

theorem Closed.edge {F : Finset ℕ} (h : D.Closed F) {i : ℕ} (hi : i ∈ F) :
    D.seg i ∈ D.edges F ∨ (D.seg i).swap ∈ D.edges F := by
  have lt := h.lt i hi
  rcases lt_or_gt_of_ne (D.ne i lt) with hlt | hlt
  · exact Or.inl (mem_edges.2 ⟨i, hi, hlt, rfl⟩)
  · right
    rw [← seg_opp lt]
    exact mem_edges.2 ⟨_, h.opp i hi, by rw [D.opp_opp i lt]; exact hlt, rfl⟩

theorem Closed.mem_pts {F : Finset ℕ} (h : D.Closed F) {q : Point} :
    q ∈ segsPts (D.edges F) ↔ ∃ i ∈ F, q ∈ (D.seg i).pts := by
  constructor
  · rintro ⟨g, hg, hq⟩
    obtain ⟨i, hi, -, rfl⟩ := mem_edges.1 hg
    exact ⟨i, hi, hq⟩
  · rintro ⟨i, hi, hq⟩
    rcases h.edge hi with h | h
    · exact ⟨_, h, hq⟩
    · exact ⟨_, h, by rw [Segment.swap_pts]; exact hq⟩

theorem Closed.sub_pts {F F' : Finset ℕ} (h : D.Closed F) (h' : D.Closed F') (hs : F ⊆ F') :
    segsPts (D.edges F) ⊆ segsPts (D.edges F') := by
  intro q hq
  obtain ⟨i, hi, hq⟩ := h.mem_pts.1 hq
  exact h'.mem_pts.2 ⟨i, hs hi, hq⟩

theorem Closed.proper {F : Finset ℕ} (h : D.Closed F) : ∀ g ∈ D.edges F, g.Proper := by
  intro g hg
  obtain ⟨i, hi, -, rfl⟩ := mem_edges.1 hg
  exact D.ne i (h.lt i hi)

theorem Closed.alone {F : Finset ℕ} (h : D.Closed F) {i : ℕ} (hi : i < D.n) : Alone (D.edges F) (D.seg i) := by
  intro g hg
  obtain ⟨j, hj, -, rfl⟩ := mem_edges.1 hg
  have hj' := h.lt j hj
  by_cases h1 : i = j
  · left; rw [h1]
  by_cases h2 : D.opp i = j
  · left; rw [← h2, seg_opp hi, Segment.swap_pts]
  · right; intro q hq hq'; exact (seg_ends hi hj' h1 h2 hq' hq).1

theorem Closed.vertexOf {F : Finset ℕ} (h : D.Closed F) {i : ℕ} (hi : i < D.n) : VertexOf (D.edges F) (D.key i) := by
  intro g hg hv
  obtain ⟨j, hj, -, rfl⟩ := mem_edges.1 hg
  have hj' := h.lt j hj
  by_cases h1 : i = j
  · left; rw [h1]; rfl
  by_cases h2 : D.opp i = j
  · right; rw [← h2]; change D.key i = D.key (D.opp (D.opp i)); rw [D.opp_opp i hi]
  · exact (seg_ends hi hj' h1 h2 (Segment.start_mem _) hv).2

theorem Closed.spoke {F : Finset ℕ} (h : D.Closed F) {v z : Point} (hz : IsSpoke (D.edges F) v z) :
    ∃ k ∈ F, D.key k = v ∧ D.key (D.opp k) = z := by
  rcases hz with hz | hz
  · obtain ⟨k, hk, -, e⟩ := mem_edges.1 hz
    exact ⟨k, hk, congrArg Segment.start e, congrArg Segment.stop e⟩
  · obtain ⟨k, hk, -, e⟩ := mem_edges.1 hz
    refine ⟨D.opp k, h.opp k hk, congrArg Segment.stop e, ?_⟩
    rw [D.opp_opp k (h.lt k hk)]; exact congrArg Segment.start e

/-- Different edges with the same start have different directions. -/
theorem dir_ne {i j : ℕ} (hi : i < D.n) (hj : j < D.n) (hne : i ≠ j) (hk : D.key i = D.key j) :
    ¬ SameDir (D.dir i) (D.dir j) := by
  -- the shorter edge is a part of the longer one
  have main : ∀ {i j : ℕ}, i < D.n → j < D.n → i ≠ j → D.key i = D.key j → ∀ c : ℚ, 0 < c → c ≤ 1 →
      (D.dir j).x = c * (D.dir i).x → (D.dir j).y = c * (D.dir i).y → False := by
    intro i j hi hj hne hk c c0 c1 hx hy
    have hopp : D.opp i ≠ j := by
      intro h
      apply D.ne i hi
      rw [h, hk]
    simp only [dir, vec] at hx hy
    rw [← hk] at hx hy
    obtain ⟨m, ⟨t, t0, t1, tx, ty⟩, hi'⟩ := exists_inner (D.proper hj)
    have hm : m ∈ (D.seg j).pts := ⟨t, t0, t1, tx, ty⟩
    simp only [seg] at tx ty
    rw [← hk] at tx ty
    refine hi' (D.seg_ends hi hj hne hopp (q := m) ⟨t * c, mul_nonneg t0 c0.le, ?_, ?_, ?_⟩ hm).2
    · calc t * c ≤ 1 * 1 := mul_le_mul t1 c1 c0.le zero_le_one
        _ = 1 := one_mul 1
    · simp only [seg]; rw [tx, hx]; ring
    · simp only [seg]; rw [ty, hy]; ring
  rintro ⟨c, c0, hx, hy⟩
  rcases le_total c 1 with h | h
  · exact main hi hj hne hk c c0 h hx hy
  · have e := mul_inv_cancel₀ c0.ne'
    refine main hj hi hne.symm hk.symm c⁻¹ (inv_pos.2 c0) ?_ ?_ ?_
    · exact inv_le_one_of_one_le₀ h
    · rw [hx]; linear_combination - (D.dir i).x * e
    · rw [hy]; linear_combination - (D.dir i).y * e

/-- `j` is the next edge after `i`, clockwise, among the edges of `F` with the same start. -/
structure Next (D : Darts) (F : Finset ℕ) (i j : ℕ) : Prop where
  mem : j ∈ F
  key : D.key j = D.key i
  ne : j ≠ i
  empty : ∀ k ∈ F, D.key k = D.key i → ¬ InSector (D.dir j) (D.dir i) (D.dir k)

/-- a point on the left of an edge -/
def LeftOf (D : Darts) (F : Finset ℕ) (i : ℕ) (q : Point) : Prop := SideOf (D.edges F) (D.seg i) 1 q

/-- a point on the right of an edge -/
def RightOf (D : Darts) (F : Finset ℕ) (i : ℕ) (q : Point) : Prop := SideOf (D.edges F) (D.seg i) (-1) q

theorem Closed.exists_left {F : Finset ℕ} (h : D.Closed F) {i : ℕ} (hi : i < D.n) : ∃ q, D.LeftOf F i q :=
  (h.alone hi).exists_side h.proper (Darts.proper hi) (Or.inl rfl)

theorem Closed.exists_right {F : Finset ℕ} (h : D.Closed F) {i : ℕ} (hi : i < D.n) : ∃ q, D.RightOf F i q :=
  (h.alone hi).exists_side h.proper (Darts.proper hi) (Or.inr rfl)

theorem Closed.left_linked {F : Finset ℕ} (h : D.Closed F) {i : ℕ} (hi : i < D.n) {q q' : Point}
    (h1 : D.LeftOf F i q) (h2 : D.LeftOf F i q') : Linked (D.edges F) q q' :=
  (h.alone hi).side_linked h.proper (Darts.proper hi) h1 h2

theorem Closed.right_linked {F : Finset ℕ} (h : D.Closed F) {i : ℕ} (hi : i < D.n) {q q' : Point}
    (h1 : D.RightOf F i q) (h2 : D.RightOf F i q') : Linked (D.edges F) q q' :=
  (h.alone hi).side_linked h.proper (Darts.proper hi) h1 h2

theorem left_opp {F : Finset ℕ} {i : ℕ} (hi : i < D.n) {q : Point} (h : D.LeftOf F (D.opp i) q) : D.RightOf F i q := by
  unfold LeftOf at h
  rw [seg_opp hi] at h
  exact h.of_swap

theorem right_opp {F : Finset ℕ} {i : ℕ} (hi : i < D.n) {q : Point} (h : D.RightOf F (D.opp i) q) : D.LeftOf F i q := by
  unfold RightOf at h
  rw [seg_opp hi] at h
  have := h.of_swap
  rw [neg_neg] at this
  exact this

/-- The left sides of two edges belong to the same face. -/
def SameFace (D : Darts) (F : Finset ℕ) (i j : ℕ) : Prop :=
  ∀ q q', D.LeftOf F i q → D.LeftOf F j q' → Linked (D.edges F) q q'

theorem Closed.sameFace_refl {F : Finset ℕ} (h : D.Closed F) {i : ℕ} (hi : i < D.n) : D.SameFace F i i :=
  fun _ _ h1 h2 => h.left_linked hi h1 h2

theorem SameFace.symm {F : Finset ℕ} {i j : ℕ} (h : D.SameFace F i j) : D.SameFace F j i :=
  fun _ _ h1 h2 => (h _ _ h2 h1).symm

theorem Closed.sameFace_trans {F : Finset ℕ} (h : D.Closed F) {i j k : ℕ} (hj : j < D.n) (h1 : D.SameFace F i j)
    (h2 : D.SameFace F j k) : D.SameFace F i k := by
  intro q q' hq hq'
  obtain ⟨x, hx⟩ := h.exists_left hj
  exact (h1 q x hq hx).trans (h2 x q' hx hq')

/-- One step along the boundary of a face. -/
theorem Closed.step {F : Finset ℕ} (h : D.Closed F) {i j : ℕ} (hi : i ∈ F) (hn : D.Next F (D.opp i) j) :
    D.SameFace F i j := by
  have li := h.lt i hi
  have lo := D.opp_lt i li
  have lj := h.lt j hn.mem
  have e := D.opp_opp i li
  obtain ⟨q, h1, h2⟩ := sector (u := D.key i) (v := D.key (D.opp i)) (w := D.key (D.opp j)) h.proper
    (h.vertexOf lo) (D.ne i li).symm (by rw [← hn.key]; exact D.ne j lj) (by
      have := dir_ne lj lo hn.ne hn.key
      unfold dir at this
      rw [e, hn.key] at this
      exact this) (by
      intro z hz
      obtain ⟨k, hk, h1, h2⟩ := h.spoke hz
      have := hn.empty k hk h1
      unfold dir at this
      rw [e, hn.key, h1, h2] at this
      exact this)
  have h2 : D.LeftOf F j q := by unfold LeftOf seg; rw [hn.key]; exact h2
  intro x y hx hy
  exact (h.left_linked li hx h1).trans (h.left_linked lj h2 hy)

theorem ends_list {l : List ℕ} (hl : ∀ i ∈ l, i < D.n) (nd : l.Nodup) (no : ∀ i ∈ l, D.opp i ∉ l) :
    EndsOnly (l.map D.seg) := by
  unfold EndsOnly
  rw [List.pairwise_map]
  refine List.Pairwise.imp_of_mem ?_ nd
  intro i j hi hj hne q h1 h2
  exact seg_ends (hl i hi) (hl j hj) hne (fun h => no i hi (h ▸ hj)) h1 h2

theorem edges_ends {F : Finset ℕ} (h : D.Closed F) : EndsOnly (D.edges F) := by
  unfold edges
  refine ends_list ?_ (Finset.nodup_toList _) ?_
  · intro i hi
    rw [Finset.mem_toList, Finset.mem_filter] at hi
    exact h.lt i hi.1
  · intro i hi ho
    rw [Finset.mem_toList, Finset.mem_filter] at hi ho
    have := D.opp_opp i (h.lt i hi.1)
    rw [this] at ho
    exact lt_asymm hi.2 ho.2

/-- The left and the right side of an edge belong to different faces. -/
theorem Closed.flip {F : Finset ℕ} (h : D.Closed F) (ev : ∀ q, Even (degree (D.edges F) q)) {i : ℕ} (hi : i ∈ F)
    {q q' : Point} (h1 : D.LeftOf F i q) (h2 : D.RightOf F i q') :
    Inside (D.edges F) q ↔ ¬ Inside (D.edges F) q' := by
  rcases h.edge hi with he | he
  · exact sides_flip h.proper ev (edges_ends h) he h1 h2
  · have := sides_flip h.proper ev (edges_ends h) he (q := q') (q' := q)
      (by have := h2.swap; rw [neg_neg] at this; exact this) h1.swap
    tauto

theorem Closed.not_opp {F : Finset ℕ} (h : D.Closed F) (ev : ∀ q, Even (degree (D.edges F) q)) {i : ℕ} (hi : i ∈ F) :
    ¬ D.SameFace F i (D.opp i) := by
  intro hs
  have li := h.lt i hi
  obtain ⟨q, hq⟩ := h.exists_left li
  obtain ⟨q', hq'⟩ := h.exists_left (D.opp_lt i li)
  have := (hs q q' hq hq').inside_iff h.proper ev
  have := h.flip ev hi hq (left_opp li hq')
  tauto

end Darts

end Clipping

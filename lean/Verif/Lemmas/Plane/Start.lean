import Verif.Lemmas.Plane.Traced

/-!
# The first edge of a contour
-/

namespace Clipping

namespace Darts

variable {D : Darts}

/-- The edges are sorted by their starts; those which go to the right from a vertex are last and sorted by slope. -/
structure Sorted (D : Darts) : Prop where
  key : ∀ i j, i < j → j < D.n → D.key i ≤ D.key j
  slope : ∀ i j, i < j → j < D.n → D.key i = D.key j → D.key i < D.key (D.opp i) →
    D.key j < D.key (D.opp j) ∧ 0 < det (D.dir i) (D.dir j)

/-- the first edge of a set -/
structure First (D : Darts) (F : Finset ℕ) (d : ℕ) : Prop where
  sorted : D.Sorted
  closed : D.Closed F
  even : ∀ q, Even (degree (D.edges F) q)
  mem : d ∈ F
  least : ∀ i ∈ F, d ≤ i

namespace First

variable {F : Finset ℕ} {d : ℕ}

theorem lt (h : D.First F d) : d < D.n := h.closed.lt d h.mem

theorem le (h : D.First F d) {i : ℕ} (hi : i ∈ F) : D.key d ≤ D.key i := by
  rcases (h.least i hi).eq_or_lt with rfl | hl
  · exact le_refl _
  · exact h.sorted.key d i hl (h.closed.lt i hi)

theorem right (h : D.First F d) : D.key d < D.key (D.opp d) :=
  lt_of_le_of_ne (h.le (h.closed.opp d h.mem)) (D.ne d h.lt)

theorem dir_nonneg {i : ℕ} (h : D.key i < D.key (D.opp i)) : 0 ≤ (D.dir i).x := by
  unfold dir vec
  rcases Point.lt_def.1 h with h | ⟨h, -⟩ <;> simp only <;> linarith

theorem slope (h : D.First F d) {i : ℕ} (hi : i ∈ F) (hk : D.key i = D.key d) (hne : i ≠ d) :
    0 ≤ (D.dir i).x ∧ 0 < det (D.dir d) (D.dir i) := by
  have hl : d < i := lt_of_le_of_ne (h.least i hi) (Ne.symm hne)
  have := h.sorted.slope d i hl (h.closed.lt i hi) hk.symm h.right
  exact ⟨dir_nonneg this.1, this.2⟩

/-- The first edge is not vertical. -/
theorem not_vertical (h : D.First F d) : 0 < (D.dir d).x := by
  obtain ⟨x, hx, hk, hne⟩ := h.closed.another h.even h.mem
  obtain ⟨h1, h2⟩ := h.slope hx hk hne
  rcases (dir_nonneg h.right).eq_or_lt with h0 | h0
  · exfalso
    have hy : 0 < (D.dir d).y := by
      have := h.right
      unfold dir vec at h0 ⊢
      simp only at h0 ⊢
      rcases Point.lt_def.1 this with h3 | ⟨-, h3⟩ <;> linarith
    unfold det at h2
    rw [← h0] at h2
    nlinarith
  · exact h0

/-- The points right below the start are on the right of the first edge. -/
theorem below_start (h : D.First F d) :
    ∃ t₀ > 0, ∀ t, 0 < t → t ≤ t₀ → D.RightOf F d ⟨(D.key d).x, (D.key d).y - t⟩ := by
  have hx := h.not_vertical
  obtain ⟨t₀, t0, ht⟩ := corner (E := D.edges F) h.closed.proper (v := D.key d) (w := D.key (D.opp d))
    (h.closed.vertexOf h.lt) (D.ne d h.lt) ⟨0, -1⟩ (σ := -1) (by
      unfold det
      unfold dir at hx
      simp only
      linarith) (by
      intro z hz s μ s0 s1 μ0 e1 e2
      obtain ⟨k, hk, kk, rfl⟩ := h.closed.spoke hz
      have hdet : 0 ≤ det (D.dir d) (D.dir k) := by
        by_cases hkd : k = d
        · subst hkd
          unfold det; linarith
        · exact (h.slope hk kk hkd).2.le
      have e3 : vec (D.key d) (D.key (D.opp k)) = D.dir k := by unfold dir; rw [kk]
      rw [e3] at e1 e2
      change (1 - s) * (D.dir d).x + s * 0 = _ at e1
      change (1 - s) * (D.dir d).y + s * (-1) = _ at e2
      have e4 : μ * det (D.dir d) (D.dir k) = - s * (D.dir d).x := by
        unfold det
        linear_combination - (D.dir d).x * e2 + (D.dir d).y * e1
      have : 0 ≤ μ * det (D.dir d) (D.dir k) := mul_nonneg μ0 hdet
      have : 0 < s * (D.dir d).x := mul_pos s0 hx
      linarith)
  refine ⟨t₀, t0, fun t h1 h2 => ?_⟩
  have := ht t h1 h2
  have e : (⟨(D.key d).x, (D.key d).y - t⟩ : Point) = ⟨(D.key d).x + t * 0, (D.key d).y + t * -1⟩ :=
    Point.ext' (by simp) (by simp only; ring)
  unfold RightOf
  rw [e]
  exact this

theorem no_below (h : D.First F d) {i : ℕ} (hi : i ∈ F) {t : ℚ} (ht : 0 < t) :
    ¬ IsBelow (D.seg i) ⟨(D.key d).x, (D.key d).y - t⟩ := by
  have l1 := h.le hi
  have l2 := h.le (h.closed.opp i hi)
  have hlo : D.key d ≤ (D.seg i).lo := by
    rcases (D.seg i).lo_hi_cases with ⟨e, -, -⟩ | ⟨e, -, -⟩
    · rw [e]; exact l1
    · rw [e]; exact l2
  rintro ⟨h1, h2, h3⟩
  simp only at h1 h2
  rcases Point.le_def.1 hlo with h4 | ⟨h4, h5⟩
  · linarith
  · unfold cross at h3
    simp only at h3
    rw [h4] at h3 h2
    nlinarith

/-- The right side of the first edge is outside. -/
theorem outside (h : D.First F d) {q : Point} (hq : D.RightOf F d q) {L : List ℕ} (hL : D.Loop L) (sub : ∀ i ∈ L, i ∈ F) :
    ¬ Inside (L.map D.seg) q := by
  obtain ⟨t, t0, ht⟩ := h.below_start
  have l := (h.closed.right_linked h.lt hq (ht t t0 (le_refl _))).mono (E' := L.map D.seg) (by
    rintro z ⟨g, hg, hz⟩
    obtain ⟨i, hi, rfl⟩ := List.mem_map.1 hg
    exact h.closed.mem_pts.2 ⟨i, sub i hi, hz⟩)
  rw [l.inside_iff hL.proper hL.even]
  unfold Inside
  rw [List.countP_eq_zero.2]
  · simp
  · intro g hg
    obtain ⟨i, hi, rfl⟩ := List.mem_map.1 hg
    simpa using h.no_below (sub i hi) t0

end First

theorem sub_pts {F : Finset ℕ} (h : D.Closed F) {L : List ℕ} (sub : ∀ i ∈ L, i ∈ F) :
    segsPts (L.map D.seg) ⊆ segsPts (D.edges F) := by
  rintro z ⟨g, hg, hz⟩
  obtain ⟨i, hi, rfl⟩ := List.mem_map.1 hg
  exact h.mem_pts.2 ⟨i, sub i hi, hz⟩

theorem Loop.flip {F : Finset ℕ} (h : D.Closed F) {L : List ℕ} (hL : D.Loop L) (sub : ∀ i ∈ L, i ∈ F) {i : ℕ} (hi : i ∈ L)
    {q q' : Point} (h1 : D.LeftOf F i q) (h2 : D.RightOf F i q') :
    Inside (L.map D.seg) q ↔ ¬ Inside (L.map D.seg) q' :=
  sides_flip hL.proper hL.even hL.ends (List.mem_map_of_mem hi) (h1.mono (sub_pts h sub)) (h2.mono (sub_pts h sub))

/-- Both sides of an edge which is not in the loop -/
theorem Loop.both {F : Finset ℕ} (h : D.Closed F) {L : List ℕ} (hL : D.Loop L) (sub : ∀ i ∈ L, i ∈ F) {i : ℕ} (hi : i ∈ F)
    (n1 : i ∉ L) (n2 : D.opp i ∉ L) {q q' : Point} {σ σ' : ℚ} (h1 : SideOf (D.edges F) (D.seg i) σ q)
    (h2 : SideOf (D.edges F) (D.seg i) σ' q') : Inside (L.map D.seg) q ↔ Inside (L.map D.seg) q' := by
  refine Linked.inside_iff hL.proper hL.even (sides_same (Darts.proper (h.lt i hi)) ?_ (sub_pts h sub) h1 h2)
  rintro m hm hi' ⟨g, hg, hmg⟩
  obtain ⟨j, hj, rfl⟩ := List.mem_map.1 hg
  exact hi' (seg_ends (h.lt i hi) (hL.lt j hj) (fun e => n1 (e ▸ hj)) (fun e => n2 (e ▸ hj)) hm hmg).1

namespace Traced

variable {F : Finset ℕ} {d : ℕ} {R : List ℕ}

/-- The interior of a traced contour is on the left of its edges. -/
theorem left_inside (T : D.Traced F d R) (h : D.First F d) {i : ℕ} (hi : i ∈ R) {q : Point} (hq : D.LeftOf F i q) :
    Inside (R.map D.seg) q := by
  obtain ⟨x, hx⟩ := h.closed.exists_left h.lt
  obtain ⟨y, hy⟩ := h.closed.exists_right h.lt
  have h1 := (T.loop.flip h.closed T.mem T.start hx hy).2 (h.outside hy T.loop T.mem)
  exact (((T.face i hi x q hx hq).mono (sub_pts h.closed T.mem)).inside_iff T.loop.proper T.loop.even).1 h1

theorem right_outside (T : D.Traced F d R) (h : D.First F d) {i : ℕ} (hi : i ∈ R) {q : Point} (hq : D.RightOf F i q) :
    ¬ Inside (R.map D.seg) q := by
  obtain ⟨x, hx⟩ := h.closed.exists_left (h.closed.lt i (T.mem i hi))
  exact (T.loop.flip h.closed T.mem hi hx hq).1 (T.left_inside h hi hx)

end Traced

end Darts

end Clipping

import Verif.Lemmas.Plane.Darts

/-!
# Cyclic order of directions
-/

namespace Clipping

/-- The direction points to the right, or vertically up. -/
def Ahead (d : Point) : Prop := 0 < d.x ∨ d.x = 0 ∧ 0 < d.y

/-- The direction points to the left, or vertically down. -/
def Behind (d : Point) : Prop := d.x < 0 ∨ d.x = 0 ∧ d.y < 0

/-- The directions clockwise from downwards (included): first those to the left, then those to the right. -/
def CwLt (a b : Point) : Prop := (Behind a ∧ Ahead b) ∨ (Behind a ∧ Behind b ∧ det a b < 0) ∨ (Ahead a ∧ Ahead b ∧ det a b < 0)

theorem ahead_or_behind {d : Point} (h : d.x ≠ 0 ∨ d.y ≠ 0) : Ahead d ∨ Behind d := by
  unfold Ahead Behind
  rcases lt_trichotomy d.x 0 with h1 | h1 | h1
  · exact Or.inr (Or.inl h1)
  · rcases lt_trichotomy d.y 0 with h2 | h2 | h2
    · exact Or.inr (Or.inr ⟨h1, h2⟩)
    · rcases h with h | h
      · exact absurd h1 h
      · exact absurd h2 h
    · exact Or.inl (Or.inr ⟨h1, h2⟩)
  · exact Or.inl (Or.inl h1)

theorem Ahead.not_behind {d : Point} (h : Ahead d) : ¬ Behind d := by
  rintro (h' | ⟨h1, h2⟩) <;> rcases h with h | ⟨h3, h4⟩ <;> linarith

/-- the opposite direction -/
def negDir (d : Point) : Point := ⟨-d.x, -d.y⟩

theorem Behind.neg {d : Point} (h : Behind d) : Ahead (negDir d) := by
  unfold Ahead negDir
  rcases h with h | ⟨h1, h2⟩
  · left; simp only; linarith
  · right; simp only; exact ⟨by linarith, by linarith⟩

theorem det_neg_left (a b : Point) : det (negDir a) b = - det a b := by unfold det negDir; simp only; ring
theorem det_neg_right (a b : Point) : det a (negDir b) = - det a b := by unfold det negDir; simp only; ring
theorem det_swap (a b : Point) : det b a = - det a b := by unfold det; ring

theorem Ahead.trans_lt {a b c : Point} (ha : Ahead a) (hb : Ahead b) (hc : Ahead c) (h1 : det a b < 0)
    (h2 : det b c ≤ 0) : det a c < 0 := by
  have key : b.x * det a c = a.x * det b c + c.x * det a b := by unfold det; ring
  have key2 : b.y * det a c = a.y * det b c + c.y * det a b := by unfold det; ring
  have ax : 0 ≤ a.x := by rcases ha with h | ⟨h, -⟩ <;> linarith
  have cx : 0 ≤ c.x := by rcases hc with h | ⟨h, -⟩ <;> linarith
  rcases hb with hb | ⟨hb, hb'⟩
  · rcases hc with hc | ⟨hc, hc'⟩
    · have p1 := mul_nonpos_of_nonneg_of_nonpos ax h2
      have p2 := mul_neg_of_pos_of_neg hc h1
      by_contra hn
      push Not at hn
      have := mul_nonneg hb.le hn
      linarith
    · exfalso
      unfold det at h2
      rw [hc] at h2
      have := mul_pos hb hc'
      linarith
  · exfalso
    unfold det at h1
    rw [hb] at h1
    have := mul_nonneg ax hb'.le
    linarith

theorem Ahead.trans_lt' {a b c : Point} (ha : Ahead a) (hb : Ahead b) (hc : Ahead c) (h1 : det a b ≤ 0)
    (h2 : det b c < 0) : det a c < 0 := by
  have key : b.x * det a c = a.x * det b c + c.x * det a b := by unfold det; ring
  have ax : 0 ≤ a.x := by rcases ha with h | ⟨h, -⟩ <;> linarith
  have cx : 0 ≤ c.x := by rcases hc with h | ⟨h, -⟩ <;> linarith
  rcases hb with hb | ⟨hb, hb'⟩
  · rcases ha with ha | ⟨ha, ha'⟩
    · have p1 := mul_neg_of_pos_of_neg ha h2
      have p2 := mul_nonpos_of_nonneg_of_nonpos cx h1
      by_contra hn
      push Not at hn
      have := mul_nonneg hb.le hn
      linarith
    · unfold det
      rw [ha]
      have hc0 : 0 < c.x := by
        rcases hc with hc | ⟨hc, hc'⟩
        · exact hc
        · exfalso
          unfold det at h2
          rw [hc] at h2
          have := mul_pos hb hc'
          linarith
      have := mul_pos ha' hc0
      linarith
  · unfold det at h1
    rw [hb] at h1
    have ha0 : a.x * b.y ≤ 0 := by linarith
    have : a.x = 0 := by
      rcases ax.eq_or_lt with h | h
      · exact h.symm
      · have := mul_pos h hb'; linarith
    rcases ha with ha | ⟨ha, ha'⟩
    · linarith
    · unfold det at h2 ⊢
      rw [hb] at h2
      rw [ha]
      have hc0 : 0 < c.x := by
        by_contra hn
        push Not at hn
        have := mul_nonpos_of_nonneg_of_nonpos hb'.le hn
        linarith
      have := mul_pos ha' hc0
      linarith

/-- Directions in this order, around, are not in the sector. -/
theorem not_inSector {r f x : Point} (hr : Ahead r ∨ Behind r) (hf : Ahead f ∨ Behind f) (hx : Ahead x ∨ Behind x)
    (h : (CwLt r f ∧ CwLt f x) ∨ (CwLt f x ∧ CwLt x r) ∨ (CwLt x r ∧ CwLt r f)) : ¬ InSector f r x := by
  -- directions to the right
  have main : ∀ a b c : Point, Ahead a → Ahead b → Ahead c →
      (det a b < 0 → det b c ≤ 0 → det a c < 0) ∧ (det a b ≤ 0 → det b c < 0 → det a c < 0) ∧
      (det b c < 0 → det c a ≤ 0 → det b a < 0) ∧ (det b c ≤ 0 → det c a < 0 → det b a < 0) ∧
      (det c a < 0 → det a b ≤ 0 → det c b < 0) ∧ (det c a ≤ 0 → det a b < 0 → det c b < 0) := fun a b c ha hb hc =>
    ⟨Ahead.trans_lt ha hb hc, Ahead.trans_lt' ha hb hc, Ahead.trans_lt hb hc ha, Ahead.trans_lt' hb hc ha,
      Ahead.trans_lt hc ha hb, Ahead.trans_lt' hc ha hb⟩
  have cw1 : ∀ a b : Point, Ahead a → Behind b → ¬ CwLt a b := by
    rintro a b ha hb (⟨h, -⟩ | ⟨h, -, -⟩ | ⟨-, h, -⟩)
    · exact ha.not_behind h
    · exact ha.not_behind h
    · exact h.not_behind hb
  have cw2 : ∀ a b : Point, Ahead a → Ahead b → CwLt a b → det a b < 0 := by
    rintro a b ha hb (⟨h, -⟩ | ⟨h, -, -⟩ | ⟨-, -, h⟩)
    · exact absurd h ha.not_behind
    · exact absurd h ha.not_behind
    · exact h
  have cw3 : ∀ a b : Point, Behind a → Behind b → CwLt a b → det a b < 0 := by
    rintro a b ha hb (⟨-, h⟩ | ⟨-, -, h⟩ | ⟨h, -, -⟩)
    · exact absurd hb h.not_behind
    · exact h
    · exact absurd ha h.not_behind
  unfold InSector
  have s1 := det_swap r f
  have s2 := det_swap f x
  have s3 := det_swap x r
  rcases hr with hr | hr <;> rcases hf with hf | hf <;> rcases hx with hx | hx
  · have m := main r f x hr hf hx
    have a1 := cw2 r f hr hf
    have a2 := cw2 f x hf hx
    have a3 := cw2 x r hx hr
    clear main cw1 cw2 cw3 hr hf hx
    grind
  · have m := main r f _ hr hf hx.neg
    simp only [det_neg_left, det_neg_right] at m
    have a1 := cw2 r f hr hf
    have a2 := cw1 f x hf hx
    clear main cw1 cw2 cw3 hr hf hx
    grind
  · have m := main r _ x hr hf.neg hx
    simp only [det_neg_left, det_neg_right] at m
    have a1 := cw1 r f hr hf
    have a3 := cw2 x r hx hr
    clear main cw1 cw2 cw3 hr hf hx
    grind
  · have m := main r _ _ hr hf.neg hx.neg
    simp only [det_neg_left, det_neg_right, neg_neg] at m
    have a1 := cw1 r f hr hf
    have a2 := cw3 f x hf hx
    clear main cw1 cw2 cw3 hr hf hx
    grind
  · have m := main _ f x hr.neg hf hx
    simp only [det_neg_left, det_neg_right] at m
    have a2 := cw2 f x hf hx
    have a3 := cw1 x r hx hr
    clear main cw1 cw2 cw3 hr hf hx
    grind
  · have m := main _ f _ hr.neg hf hx.neg
    simp only [det_neg_left, det_neg_right, neg_neg] at m
    have a2 := cw1 f x hf hx
    have a3 := cw3 x r hx hr
    clear main cw1 cw2 cw3 hr hf hx
    grind
  · have m := main _ _ x hr.neg hf.neg hx
    simp only [det_neg_left, det_neg_right, neg_neg] at m
    have a1 := cw3 r f hr hf
    have a3 := cw1 x r hx hr
    clear main cw1 cw2 cw3 hr hf hx
    grind
  · have m := main _ _ _ hr.neg hf.neg hx.neg
    simp only [det_neg_left, det_neg_right, neg_neg] at m
    have a1 := cw3 r f hr hf
    have a2 := cw3 f x hf hx
    have a3 := cw3 x r hx hr
    clear main cw1 cw2 cw3 hr hf hx
    grind

theorem det_zero {a b : Point} (ha : a.x ≠ 0 ∨ a.y ≠ 0) (hb : b.x ≠ 0 ∨ b.y ≠ 0) (h : det a b = 0) :
    ∃ c : ℚ, c ≠ 0 ∧ b.x = c * a.x ∧ b.y = c * a.y := by
  unfold det at h
  have main : ∃ c : ℚ, b.x = c * a.x ∧ b.y = c * a.y := by
    rcases ha with ha | ha
    · have e := div_mul_cancel₀ b.x ha
      refine ⟨b.x / a.x, e.symm, ?_⟩
      apply mul_left_cancel₀ ha
      linear_combination h - a.y * e
    · have e := div_mul_cancel₀ b.y ha
      refine ⟨b.y / a.y, ?_, e.symm⟩
      apply mul_left_cancel₀ ha
      linear_combination - h - a.x * e
  obtain ⟨c, h1, h2⟩ := main
  refine ⟨c, ?_, h1, h2⟩
  rintro rfl
  rw [zero_mul] at h1 h2
  rcases hb with h | h
  · exact h h1
  · exact h h2

/-- Of two directions one is in the sector of the other. -/
theorem inSector_total {f a b : Point} (hf : f.x ≠ 0 ∨ f.y ≠ 0) (ha : a.x ≠ 0 ∨ a.y ≠ 0) (hb : b.x ≠ 0 ∨ b.y ≠ 0)
    (h1 : ¬ SameDir f a) (h2 : ¬ SameDir f b) (h3 : ¬ SameDir a b) : InSector f a b ∨ InSector f b a := by
  have opp : ∀ {a b : Point}, (a.x ≠ 0 ∨ a.y ≠ 0) → (b.x ≠ 0 ∨ b.y ≠ 0) → ¬ SameDir a b → det a b = 0 →
      ∃ c < 0, b.x = c * a.x ∧ b.y = c * a.y := by
    intro a b ha hb hs h
    obtain ⟨c, c0, hx, hy⟩ := det_zero ha hb h
    rcases lt_or_gt_of_ne c0 with h | h
    · exact ⟨c, h, hx, hy⟩
    · exact absurd ⟨c, h, hx, hy⟩ hs
  have s := det_swap a b
  unfold InSector
  have e1 : det f a = 0 → det f b < 0 → 0 < det a b := by
    intro h0 h
    obtain ⟨c, c0, hx, hy⟩ := opp hf ha h1 h0
    have : det a b = c * det f b := by unfold det; rw [hx, hy]; ring
    rw [this]; exact mul_pos_of_neg_of_neg c0 h
  have e2 : det f b = 0 → det f a < 0 → 0 < det b a := by
    intro h0 h
    obtain ⟨c, c0, hx, hy⟩ := opp hf hb h2 h0
    have : det b a = c * det f a := by unfold det; rw [hx, hy]; ring
    rw [this]; exact mul_pos_of_neg_of_neg c0 h
  have e3 : det f a = 0 → det f b ≠ 0 := by
    intro h0 h
    obtain ⟨c, c0, hx, hy⟩ := opp hf ha h1 h0
    obtain ⟨c', c0', hx', hy'⟩ := opp hf hb h2 h
    refine h3 ⟨c' / c, div_pos_of_neg_of_neg c0' c0, ?_, ?_⟩
    · rw [hx', hx]
      linear_combination - f.x * div_mul_cancel₀ c' c0.ne
    · rw [hy', hy]
      linear_combination - f.y * div_mul_cancel₀ c' c0.ne
  have e4 : det a b = 0 → 0 < det f a → det f b < 0 := by
    intro h0 h
    obtain ⟨c, c0, hx, hy⟩ := opp ha hb h3 h0
    have : det f b = c * det f a := by unfold det; rw [hx, hy]; ring
    rw [this]; exact mul_neg_of_neg_of_pos c0 h
  have e5 : det a b = 0 → det f a < 0 → 0 < det f b := by
    intro h0 h
    obtain ⟨c, c0, hx, hy⟩ := opp ha hb h3 h0
    have : det f b = c * det f a := by unfold det; rw [hx, hy]; ring
    rw [this]; exact mul_pos_of_neg_of_neg c0 h
  clear opp h1 h2 h3
  grind

namespace Darts

variable {D : Darts}

theorem dir_ne_zero {i : ℕ} (hi : i < D.n) : (D.dir i).x ≠ 0 ∨ (D.dir i).y ≠ 0 := by
  by_contra h
  push Not at h
  simp only [dir, vec] at h
  exact D.ne i hi (Point.ext' (by linarith [h.1]) (by linarith [h.2]))

theorem sameDir_symm {a b : Point} (h : SameDir a b) : SameDir b a := by
  obtain ⟨c, c0, hx, hy⟩ := h
  have e := mul_inv_cancel₀ c0.ne'
  refine ⟨c⁻¹, inv_pos.2 c0, ?_, ?_⟩
  · rw [hx]; linear_combination - a.x * e
  · rw [hy]; linear_combination - a.y * e

/-- An edge is the next one of one edge only. -/
theorem Next.inj {F : Finset ℕ} (hF : D.Closed F) {a b j : ℕ} (ha : a ∈ F) (hb : b ∈ F) (h1 : D.Next F a j)
    (h2 : D.Next F b j) : a = b := by
  by_contra hne
  have la := hF.lt a ha
  have lb := hF.lt b hb
  have lj := hF.lt j h1.mem
  have kab : D.key a = D.key b := h1.key.symm.trans h2.key
  rcases inSector_total (dir_ne_zero lj) (dir_ne_zero la) (dir_ne_zero lb) (dir_ne lj la h1.ne h1.key)
    (dir_ne lj lb h2.ne h2.key) (dir_ne la lb hne kab) with h | h
  · exact h1.empty b hb kab.symm h
  · exact h2.empty a ha kab h

end Darts

end Clipping

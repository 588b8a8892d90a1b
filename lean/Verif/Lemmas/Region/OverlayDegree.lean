import Verif.Lemmas.Region.Overlay
import Verif.Lemmas.Region.Union

/-!
# The separating edges of a combination of two regions meet evenly
-/

namespace Clipping

open Sweep

/-- The condition holds for all sufficiently small positive numbers. -/
def Small (P : ℚ → Prop) : Prop := ∃ δ > 0, ∀ h, 0 < h → h < δ → P h

namespace Small

theorem of {δ : ℚ} (hδ : 0 < δ) {P : ℚ → Prop} (h : ∀ d, 0 < d → d < δ → P d) : Small P := ⟨δ, hδ, h⟩

theorem mono {P Q : ℚ → Prop} (h : Small P) (hpq : ∀ d, 0 < d → P d → Q d) : Small Q := by
  obtain ⟨δ, h1, h2⟩ := h
  exact ⟨δ, h1, fun d d0 d1 => hpq d d0 (h2 d d0 d1)⟩

theorem and {P Q : ℚ → Prop} (h : Small P) (h' : Small Q) : Small fun d => P d ∧ Q d := by
  obtain ⟨δ, h1, h2⟩ := h
  obtain ⟨δ', h1', h2'⟩ := h'
  refine ⟨min δ δ', lt_min h1 h1', fun d d0 d1 => ?_⟩
  rw [lt_min_iff] at d1
  exact ⟨h2 d d0 d1.1, h2' d d0 d1.2⟩

theorem const {p : Prop} (h : p) : Small fun _ => p := ⟨1, by norm_num, fun _ _ _ => h⟩

theorem lt {δ : ℚ} (hδ : 0 < δ) : Small fun d => d < δ := ⟨δ, hδ, fun _ _ h => h⟩

theorem ne (δ : ℚ) : Small fun d => d ≠ δ := by
  by_cases h : 0 < δ
  · exact (lt h).mono fun d _ h => h.ne
  · exact ⟨1, by norm_num, fun d d0 _ e => h (e ▸ d0)⟩

theorem list {α : Type} {l : List α} {P : α → ℚ → Prop} (h : ∀ a ∈ l, Small (P a)) : Small fun d => ∀ a ∈ l, P a d := by
  induction l with
  | nil => exact ⟨1, by norm_num, fun d _ _ a ha => by simp at ha⟩
  | cons a l ih =>
    refine ((h a (by simp)).and (ih fun b hb => h b (by simp [hb]))).mono fun d _ h b hb => ?_
    rcases List.mem_cons.1 hb with rfl | hb
    · exact h.1
    · exact h.2 b hb

theorem finite {α : Type} {S : Set α} (hS : S.Finite) {P : α → ℚ → Prop} (h : ∀ a ∈ S, Small (P a)) :
    Small fun d => ∀ a ∈ S, P a d := by
  have := list (l := hS.toFinset.toList) (P := P) fun a ha => h a (by simpa using ha)
  exact this.mono fun d _ h a ha => h a (by simpa using ha)

theorem exists_pos {P : ℚ → Prop} (h : Small P) : ∃ d > 0, P d := by
  obtain ⟨δ, h1, h2⟩ := h
  exact ⟨δ / 2, by linarith, h2 _ (by linarith) (by linarith)⟩

end Small

/-- Number of the four points around `v` which are above the segment, plus those right above and below `v` on it. -/
noncomputable def around (t : Segment) (v : Point) (h d : ℚ) : ZMod 2 :=
  ind (IsBelow t ⟨v.x - d, v.y + h⟩) + ind (IsBelow t ⟨v.x + d, v.y + h⟩) + ind (IsBelow t ⟨v.x - d, v.y - h⟩) +
    ind (IsBelow t ⟨v.x + d, v.y - h⟩) + ind ((⟨v.x, v.y + h⟩ : Point) ∈ t.pts) + ind ((⟨v.x, v.y - h⟩ : Point) ∈ t.pts)

theorem near_of {v : Point} {δ a b : ℚ} (ha : |a| < δ) (hb : |b| < δ) : Near δ v ⟨v.x + a, v.y + b⟩ := by
  refine ⟨?_, ?_⟩
  · simpa using ha
  · simpa using hb

theorem vertical_between {x y₁ y₂ : ℚ} {q : Point} (h : q ∈ (Segment.mk ⟨x, y₁⟩ ⟨x, y₂⟩).pts) : q.x = x := by
  obtain ⟨t, -, -, tx, -⟩ := h
  simp only [sub_self, mul_zero, add_zero] at tx
  exact tx

theorem isBelow_vert {t : Segment} (ht : t.Proper) {x y₁ y₂ : ℚ} (hy : y₁ ≤ y₂)
    (h : ∀ y, y₁ ≤ y → y ≤ y₂ → (⟨x, y⟩ : Point) ∉ t.pts) : IsBelow t ⟨x, y₁⟩ ↔ IsBelow t ⟨x, y₂⟩ := by
  rw [isBelow_height, isBelow_height]
  constructor
  · rintro ⟨h1, h2, h3⟩; exact ⟨h1, h2, h3.trans_le hy⟩
  · rintro ⟨h1, h2, h3⟩
    refine ⟨h1, h2, ?_⟩
    by_contra hc
    exact h _ (not_lt.1 hc) h3.le ((mem_height ht (lt_of_le_of_lt h1 h2)).2 ⟨h1, h2.le, rfl⟩)

/-- What a segment adds to the count around a point is whether it ends there. -/
theorem around_eq {t : Segment} (ht : t.Proper) (v : Point) :
    Small fun h => Small fun d => around t v h d = ind (t.lo = v) + ind (t.hi = v) := by
  by_cases hv : v ∈ t.pts
  · have lt := Segment.lo_lt_hi ht
    rcases (lo_x_le ht).eq_or_lt with hx | hx
    · -- vertical
      have hy : t.lo.y < t.hi.y := by
        rcases lt with h | ⟨-, h⟩
        · exact absurd hx h.ne
        · exact h
      have m := (Segment.mem_iff ht).1 hv
      have vx : t.lo.x = v.x := by
        rcases m.2.1 with h | ⟨h, -⟩
        · rcases m.2.2 with h' | ⟨h', -⟩
          · linarith
          · linarith
        · exact h
      have vx' : t.hi.x = v.x := by linarith
      have y1 : t.lo.y ≤ v.y := by
        rcases m.2.1 with h | ⟨-, h⟩
        · linarith
        · exact h
      have y2 : v.y ≤ t.hi.y := by
        rcases m.2.2 with h | ⟨-, h⟩
        · linarith
        · exact h
      have mem : ∀ y, (⟨v.x, y⟩ : Point) ∈ t.pts ↔ t.lo.y ≤ y ∧ y ≤ t.hi.y := by
        intro y
        rw [Segment.mem_iff ht, Point.le_def, Point.le_def]
        unfold cross
        simp only [vx, vx', lt_irrefl, false_or, true_and, sub_self, zero_mul, mul_zero]
      have no : ∀ q, ind (IsBelow t q) = 0 := by
        intro q
        refine ind_neg ?_
        rintro ⟨h1, h2, -⟩
        linarith
      have el : t.lo = v ↔ ¬ t.lo.y < v.y := by
        constructor
        · intro h; rw [h]; exact lt_irrefl _
        · intro h; exact Point.ext' vx (by linarith)
      have eh : t.hi = v ↔ ¬ v.y < t.hi.y := by
        constructor
        · intro h; rw [h]; exact lt_irrefl _
        · intro h; exact Point.ext' vx' (by linarith)
      have s1 : Small fun h => ((⟨v.x, v.y - h⟩ : Point) ∈ t.pts ↔ t.lo.y < v.y) := by
        by_cases c : t.lo.y < v.y
        · refine (Small.lt (sub_pos.2 c)).mono fun h h0 hh => ?_
          rw [mem]
          exact iff_of_true ⟨by linarith, by linarith⟩ c
        · refine Small.of (δ := 1) (by norm_num) fun h h0 _ => ?_
          rw [mem]
          exact iff_of_false (fun g => by linarith [g.1]) c
      have s2 : Small fun h => ((⟨v.x, v.y + h⟩ : Point) ∈ t.pts ↔ v.y < t.hi.y) := by
        by_cases c : v.y < t.hi.y
        · refine (Small.lt (sub_pos.2 c)).mono fun h h0 hh => ?_
          rw [mem]
          exact iff_of_true ⟨by linarith, by linarith⟩ c
        · refine Small.of (δ := 1) (by norm_num) fun h h0 _ => ?_
          rw [mem]
          exact iff_of_false (fun g => by linarith [g.2]) c
      refine (s1.and s2).mono fun h h0 ⟨g1, g2⟩ => Small.of (δ := 1) (by norm_num) fun d _ _ => ?_
      unfold around
      rw [no, no, no, no, ind_congr g1, ind_congr g2, ind_congr el, ind_congr eh, ind_not, ind_not]
      generalize ind (t.lo.y < v.y) = a
      generalize ind (v.y < t.hi.y) = b
      revert a b
      decide
    · -- not vertical
      obtain ⟨x, y⟩ := v
      obtain ⟨h1, h2, h3⟩ := (mem_height ht hx).1 hv
      set k := (t.hi.y - t.lo.y) / (t.hi.x - t.lo.x) with hk
      have hh : ∀ d, heightAt t (x + d) = y + d * k := by
        intro d; rw [h3]; unfold heightAt; rw [hk]; ring
      have el : t.lo = ⟨x, y⟩ ↔ ¬ t.lo.x < x := by
        constructor
        · intro h; rw [h]; exact lt_irrefl _
        · intro h
          have e : t.lo.x = x := by linarith
          refine Point.ext' e ?_
          rw [h3]; unfold heightAt; rw [← e]; simp
      have eh : t.hi = ⟨x, y⟩ ↔ ¬ x < t.hi.x := by
        constructor
        · intro h; rw [h]; exact lt_irrefl _
        · intro h
          have e : t.hi.x = x := by linarith
          refine Point.ext' e ?_
          have hd : t.hi.x - t.lo.x ≠ 0 := by linarith
          rw [h3]; unfold heightAt; simp only [← e]
          rw [mul_comm, mul_div_assoc, div_self hd]; ring
      refine Small.of (δ := 1) (by norm_num) fun h h0 _ => ?_
      have n1 : ind ((⟨x, y + h⟩ : Point) ∈ t.pts) = 0 := ind_neg fun g => by
        have := ((mem_height ht hx).1 g).2.2; linarith
      have n2 : ind ((⟨x, y - h⟩ : Point) ∈ t.pts) = 0 := ind_neg fun g => by
        have := ((mem_height ht hx).1 g).2.2; linarith
      have small : Small fun d => d * (|k| + 1) < h := by
        refine (Small.lt (δ := h / (|k| + 1)) (by positivity)).mono fun d _ hd => ?_
        rwa [lt_div_iff₀ (by positivity)] at hd
      have s1 : Small fun d => (t.lo.x ≤ x - d ↔ t.lo.x < x) := by
        by_cases c : t.lo.x < x
        · exact (Small.lt (sub_pos.2 c)).mono fun d d0 hd => iff_of_true (by linarith) c
        · exact Small.of (δ := 1) (by norm_num) fun d d0 _ => iff_of_false (by linarith) c
      have s2 : Small fun d => (x + d < t.hi.x ↔ x < t.hi.x) := by
        by_cases c : x < t.hi.x
        · exact (Small.lt (sub_pos.2 c)).mono fun d d0 hd => iff_of_true (by linarith) c
        · exact Small.of (δ := 1) (by norm_num) fun d d0 _ => iff_of_false (by linarith) c
      refine (small.and (s1.and s2)).mono fun d d0 ⟨g0, g1, g2⟩ => ?_
      have b1 : |d * k| < h := by rw [abs_mul, abs_of_pos d0]; linarith
      have b2 := abs_lt.1 b1
      unfold around
      have i1 : IsBelow t ⟨x - d, y + h⟩ ↔ t.lo.x < x := by
        rw [isBelow_height, sub_eq_add_neg, hh, ← sub_eq_add_neg]
        constructor
        · intro g; exact g1.1 g.1
        · intro g; exact ⟨g1.2 g, by linarith, by linarith [b2.1]⟩
      have i2 : IsBelow t ⟨x + d, y + h⟩ ↔ x < t.hi.x := by
        rw [isBelow_height, hh]
        constructor
        · intro g; exact g2.1 g.2.1
        · intro g; exact ⟨by linarith, g2.2 g, by linarith [b2.2]⟩
      have i3 : ind (IsBelow t ⟨x - d, y - h⟩) = 0 := ind_neg fun g => by
        rw [isBelow_height, sub_eq_add_neg x, hh] at g
        linarith [g.2.2, b2.2]
      have i4 : ind (IsBelow t ⟨x + d, y - h⟩) = 0 := ind_neg fun g => by
        rw [isBelow_height, hh] at g
        linarith [g.2.2, b2.1]
      simp only
      rw [ind_congr i1, ind_congr i2, i3, i4, n1, n2, ind_congr el, ind_congr eh, ind_not, ind_not]
      generalize ind (t.lo.x < x) = a
      generalize ind (x < t.hi.x) = b
      revert a b
      decide
  · obtain ⟨δ, δ0, hoff⟩ := exists_near_off ht hv
    refine (Small.lt δ0).mono fun h h0 hh => (Small.lt δ0).mono fun d d0 hd => ?_
    have off : ∀ a b, |a| < δ → |b| < δ → (⟨v.x + a, v.y + b⟩ : Point) ∉ t.pts := fun a b ha hb =>
      hoff _ (near_of ha hb)
    have vert : ∀ a, |a| < δ → (IsBelow t ⟨v.x + a, v.y - h⟩ ↔ IsBelow t ⟨v.x + a, v.y + h⟩) := by
      intro a ha
      refine isBelow_vert ht (by linarith) fun y g1 g2 => ?_
      have := off a (y - v.y) ha (abs_lt.2 ⟨by linarith, by linarith⟩)
      rwa [add_sub_cancel] at this
    have h1 := vert d (abs_lt.2 ⟨by linarith, hd⟩)
    have h2 := vert (-d) (abs_lt.2 ⟨by linarith, by linarith⟩)
    have z : |(0 : ℚ)| < δ := by simpa using δ0
    have n1 := off 0 h z (abs_lt.2 ⟨by linarith, hh⟩)
    have n2 := off 0 (-h) z (abs_lt.2 ⟨by linarith, by linarith⟩)
    rw [add_zero] at n1 n2
    rw [← sub_eq_add_neg] at n2 h2
    unfold around
    rw [ind_congr h1, ind_congr h2, ind_neg n1, ind_neg n2,
      ind_neg (P := t.lo = v) (fun e => hv (e ▸ t.lo_mem)), ind_neg (P := t.hi = v) (fun e => hv (e ▸ t.hi_mem))]
    generalize ind (IsBelow t ⟨v.x + d, v.y + h⟩) = a
    generalize ind (IsBelow t ⟨v.x - d, v.y + h⟩) = b
    revert a b
    decide

/-- The sides of a point which is on vertical edges only. -/
theorem sides_vertical {A : List Segment} (hA : IsBoundary A) {E : List Segment} (hE : A ⊆ E) {m : Point}
    (hv : ¬ Vertex E m) (vert : ∀ e ∈ A, m ∈ e.pts → e.lo.x = e.hi.x) :
    Small fun d => (Inside A ⟨m.x + d, m.y⟩ ↔ Inside A m) ∧
      (Inside A ⟨m.x - d, m.y⟩ ↔ Xor (Inside A m) (m ∈ segsPts A)) ∧
      (⟨m.x + d, m.y⟩ : Point) ∉ segsPts A ∧ (⟨m.x - d, m.y⟩ : Point) ∉ segsPts A := by
  classical
  have near : ∀ {δ d : ℚ}, 0 < d → d < δ → Near δ m ⟨m.x + d, m.y⟩ ∧ Near δ m ⟨m.x - d, m.y⟩ := by
    intro δ d d0 hd
    have := near_of (v := m) (δ := δ) (a := d) (b := 0) (abs_lt.2 ⟨by linarith, hd⟩) (by simpa using d0.trans hd)
    have h' := near_of (v := m) (δ := δ) (a := -d) (b := 0) (abs_lt.2 ⟨by linarith, by linarith⟩)
      (by simpa using d0.trans hd)
    rw [add_zero] at this h'
    exact ⟨this, by rwa [sub_eq_add_neg]⟩
  by_cases hm : m ∈ segsPts A
  · obtain ⟨e, he, hm'⟩ := hm
    have perm := List.perm_cons_erase he
    have pe := hA.noOverlap.1 e he
    have ne : ¬ e.IsEnd m := fun h => hv (Or.inl ⟨e, hE he, h⟩)
    have off : m ∉ segsPts (A.erase e) := by
      rintro ⟨s, hs, h⟩
      have := (List.pairwise_cons.1 (hA.noOverlap.perm perm).2).1 s hs
      refine hv (Or.inr ⟨e, hE he, s, hE (List.mem_of_mem_erase hs), ?_⟩)
      ext q
      constructor
      · rintro ⟨q1, q2⟩
        by_contra hne
        exact this ⟨q, m, hne, q1, hm', q2, h⟩
      · rintro rfl; exact ⟨hm', h⟩
    obtain ⟨δ, δ0, hs⟩ := local_sides (E := A.erase e) (e := e)
      (fun s h => hA.noOverlap.1 s (perm.mem_iff.2 h)) (fun q => by rw [← degree_perm perm]; exact hA.even q) hm' ne off
    have lt := Segment.lo_lt_hi pe
    have vx := vert e he hm'
    have hy : e.lo.y < e.hi.y := by
      rcases lt with h | ⟨-, h⟩
      · exact absurd vx h.ne
      · exact h
    have mx : m.x = e.lo.x := by
      have mm := (Segment.mem_iff pe).1 hm'
      rcases mm.2.1 with h | ⟨h, -⟩
      · rcases mm.2.2 with h' | ⟨h', -⟩ <;> linarith
      · exact h.symm
    have cr : ∀ d, cross e.lo e.hi ⟨m.x + d, m.y⟩ = - (e.hi.y - e.lo.y) * d := by
      intro d; unfold cross; rw [mx, ← vx]; ring
    have e1 : ∀ q, Inside A q ↔ Inside (e :: A.erase e) q := fun q => inside_perm perm q
    refine (Small.lt δ0).mono fun d d0 hd => ?_
    obtain ⟨n1, n2⟩ := near d0 hd
    have c1 := cr d
    have c2 := cr (-d)
    rw [← sub_eq_add_neg] at c2
    have k1 : cross e.lo e.hi ⟨m.x + d, m.y⟩ < 0 := by rw [c1]; nlinarith
    have k2 : 0 < cross e.lo e.hi ⟨m.x - d, m.y⟩ := by rw [c2]; nlinarith
    obtain ⟨o1, -, r1⟩ := hs _ n1
    obtain ⟨o2, r2, -⟩ := hs _ n2
    have hmem : m ∈ segsPts A := ⟨e, he, hm'⟩
    have offA : ∀ q, q ∉ segsPts (A.erase e) → cross e.lo e.hi q ≠ 0 → q ∉ segsPts A := by
      rintro q h1 h2 ⟨s, hs, h⟩
      rcases List.mem_cons.1 (perm.mem_iff.1 hs) with rfl | hs
      · exact h2 ((Segment.mem_iff pe).1 h).1
      · exact h1 ⟨s, hs, h⟩
    refine ⟨?_, ?_, offA _ o1 k1.ne, offA _ o2 k2.ne'⟩
    · rw [e1, e1, r1 k1]
    · rw [e1, e1, r2 k2]; unfold Xor; tauto
  · obtain ⟨δ, δ0, hoff⟩ := exists_near_off_all hA.noOverlap.1 hm
    refine (Small.lt δ0).mono fun d d0 hd => ?_
    obtain ⟨n1, n2⟩ := near d0 hd
    have c1 := inside_const hA.noOverlap.1 hA.even (s := ⟨m, _⟩) fun q hq => hoff q (n1.path q hq)
    have c2 := inside_const hA.noOverlap.1 hA.even (s := ⟨m, _⟩) fun q hq => hoff q (n2.path q hq)
    refine ⟨c1.symm, ?_, hoff _ n1, hoff _ n2⟩
    rw [← c2]
    unfold Xor
    tauto

namespace Overlay

variable {A B T : List Segment} {op : Prop → Prop → Prop} (O : Overlay A B T op)
include O

theorem cross_sum {m : Point} (hv : ¬ Vertex (A ++ B) m) (vert : ∀ e ∈ A ++ B, m ∈ e.pts → e.lo.x = e.hi.x) :
    Small fun d => (T.map fun t => ind (m ∈ t.pts)).sum = ind (Inside T ⟨m.x + d, m.y⟩) + ind (Inside T ⟨m.x - d, m.y⟩) := by
  have sA := sides_vertical O.hA (List.subset_append_left A B) hv fun e he => vert e (List.mem_append_left _ he)
  have sB := sides_vertical O.hB (List.subset_append_right A B) hv fun e he => vert e (List.mem_append_right _ he)
  refine (sA.and sB).mono fun d d0 ⟨⟨a1, a2, a3, a4⟩, b1, b2, b3, b4⟩ => ?_
  rw [O.key m hv, ind_congr (O.inside a3 b3), ind_congr (O.inside a4 b4), propext a1, propext a2, propext b1, propext b2]

/-- An even number of the separating edges meets in every point. -/
theorem even (v : Point) : Even (degree T v) := by
  have s1 : Small fun h => ∀ t ∈ T, Small fun d => around t v h d = ind (t.lo = v) + ind (t.hi = v) :=
    Small.list fun t ht => around_eq (O.proper t ht) v
  have s2 : Small fun h => ∀ q ∈ {p | Vertex (A ++ B) p}, h ≠ q.y - v.y ∧ h ≠ v.y - q.y :=
    Small.finite (vertex_finite _) fun q _ => (Small.ne _).and (Small.ne _)
  have s3 : Small fun h => ∀ e ∈ A ++ B, ((⟨v.x, v.y + h⟩ : Point) ∈ e.pts → e.lo.x = e.hi.x) ∧
      ((⟨v.x, v.y - h⟩ : Point) ∈ e.pts → e.lo.x = e.hi.x) := by
    refine Small.list fun e he => ?_
    have pe := O.proper' e he
    by_cases hx : e.lo.x = e.hi.x
    · exact Small.of (δ := 1) (by norm_num) fun _ _ _ => ⟨fun _ => hx, fun _ => hx⟩
    have lt := lt_of_le_of_ne (lo_x_le pe) hx
    refine ((Small.ne (heightAt e v.x - v.y)).and (Small.ne (v.y - heightAt e v.x))).mono fun h _ ⟨g1, g2⟩ => ?_
    constructor
    · intro g
      have := ((mem_height pe lt).1 g).2.2
      exact absurd (by linarith) g1
    · intro g
      have := ((mem_height pe lt).1 g).2.2
      exact absurd (by linarith) g2
  obtain ⟨h, h0, g1, g2, g3⟩ := (s1.and (s2.and s3)).exists_pos
  have v1 : ¬ Vertex (A ++ B) ⟨v.x, v.y + h⟩ := fun g => (g2 _ g).1 (by simp)
  have v2 : ¬ Vertex (A ++ B) ⟨v.x, v.y - h⟩ := fun g => (g2 _ g).2 (by simp)
  have c1 := O.cross_sum v1 fun e he => (g3 e he).1
  have c2 := O.cross_sum v2 fun e he => (g3 e he).2
  obtain ⟨d, d0, k1, k2, k3⟩ := (c1.and (c2.and (Small.list (P := fun t d => around t v h d = ind (t.lo = v) + ind (t.hi = v)) g1))).exists_pos
  have total : (T.map fun t => around t v h d).sum = 0 := by
    unfold around
    simp only [List.sum_map_add, ← inside_sum]
    have k1' : (T.map fun t => ind ((⟨v.x, v.y + h⟩ : Point) ∈ t.pts)).sum = _ := k1
    have k2' : (T.map fun t => ind ((⟨v.x, v.y - h⟩ : Point) ∈ t.pts)).sum = _ := k2
    rw [k1', k2']
    simp only
    generalize ind (Inside T ⟨v.x - d, v.y + h⟩) = a
    generalize ind (Inside T ⟨v.x + d, v.y + h⟩) = b
    generalize ind (Inside T ⟨v.x - d, v.y - h⟩) = c
    generalize ind (Inside T ⟨v.x + d, v.y - h⟩) = e
    revert a b c e
    decide
  rw [List.map_congr_left k3] at total
  have : (T.map fun t => ind (t.start = v) + ind (t.stop = v)).sum = 0 := by
    rw [← total]
    congr 1
    exact List.map_congr_left fun t _ => (ends_lo_hi (fun q => q = v) t).symm
  rw [List.sum_map_add] at this
  have e1 : ∀ f : Segment → Point, (T.map fun t => ind (f t = v)).sum = (T.countP fun t => decide (f t = v) : ℕ) := by
    intro f
    clear * -
    induction T with
    | nil => simp
    | cons t T ih =>
      rw [List.map_cons, List.sum_cons, ih, List.countP_cons]
      by_cases h : f t = v
      · rw [ind_pos h]; simp [h, add_comm]
      · rw [ind_neg h]; simp [h]
  rw [e1, e1, ← Nat.cast_add] at this
  rw [← ZMod.natCast_eq_zero_iff_even]
  exact this

end Overlay

end Clipping

import Verif.Lemmas.Region.Local
import Verif.Spec.Arrangement
import Mathlib.Order.Interval.Set.Infinite
import Mathlib.Data.Set.Finite.Lattice

/-!
# The edges which separate the inside of a combination of two regions from its outside
-/

namespace Clipping

open Sweep

/-- `T` are those parts of the edges `A` and `B` of two regions which separate the inside of the combination `op` of
both regions from its outside. -/
structure Overlay (A B T : List Segment) (op : Prop → Prop → Prop) : Prop where
  hA : IsBoundary A
  hB : IsBoundary B
  zero : ¬ op False False
  proper : ∀ t ∈ T, t.Proper
  sub : ∀ t ∈ T, ∃ e ∈ A ++ B, t.pts ⊆ e.pts
  ends : ∀ t ∈ T, Vertex (A ++ B) t.start ∧ Vertex (A ++ B) t.stop
  key : ∀ m, ¬ Vertex (A ++ B) m → (T.map fun t => ind (m ∈ t.pts)).sum =
    ind (op (Inside A m) (Inside B m)) +
      ind (op (Xor (Inside A m) (m ∈ segsPts A)) (Xor (Inside B m) (m ∈ segsPts B)))

theorem vertex_finite (l : List Segment) : {p | Vertex l p}.Finite := by
  have e : {p | Vertex l p} ⊆ {p | p ∈ l.map Segment.start ++ l.map Segment.stop} ∪
      ⋃ s ∈ {s | s ∈ l}, ⋃ t ∈ {t | t ∈ l}, {p | s.pts ∩ t.pts = {p}} := by
    rintro p (⟨s, hs, h⟩ | ⟨s, hs, t, ht, h⟩)
    · left
      rcases h with rfl | rfl
      · exact List.mem_append_left _ (List.mem_map_of_mem hs)
      · exact List.mem_append_right _ (List.mem_map_of_mem hs)
    · right
      simp only [Set.mem_iUnion]
      exact ⟨s, hs, t, ht, h⟩
  refine Set.Finite.subset (Set.Finite.union (List.finite_toSet _) ?_) e
  refine Set.Finite.biUnion (List.finite_toSet _) fun s _ => Set.Finite.biUnion (List.finite_toSet _) fun t _ => ?_
  refine Set.Subsingleton.finite ?_
  intro p hp q hq
  have h : ({p} : Set Point) = {q} := by rw [← (hp : s.pts ∩ t.pts = {p}), (hq : s.pts ∩ t.pts = {q})]
  exact Set.singleton_injective h

/-- Where a segment which is not vertical meets a vertical line. -/
def heightAt (e : Segment) (x : ℚ) : ℚ := e.lo.y + (x - e.lo.x) * (e.hi.y - e.lo.y) / (e.hi.x - e.lo.x)

theorem lo_x_le {e : Segment} (he : e.Proper) : e.lo.x ≤ e.hi.x := by
  have := lo_lt_hi he
  rcases this with h | ⟨h, -⟩
  · exact h.le
  · exact h.le

theorem cross_height {e : Segment} {x y : ℚ} (h : e.lo.x < e.hi.x) :
    cross e.lo e.hi ⟨x, y⟩ = (e.hi.x - e.lo.x) * (y - heightAt e x) := by
  unfold heightAt cross
  have : e.hi.x - e.lo.x ≠ 0 := by linarith
  have h2 : (x - e.lo.x) * (e.hi.y - e.lo.y) / (e.hi.x - e.lo.x) * (e.hi.x - e.lo.x) = (x - e.lo.x) * (e.hi.y - e.lo.y) :=
    div_mul_cancel₀ _ this
  simp only
  linear_combination h2

theorem mem_height {e : Segment} (he : e.Proper) {x y : ℚ} (h : e.lo.x < e.hi.x) :
    (⟨x, y⟩ : Point) ∈ e.pts ↔ e.lo.x ≤ x ∧ x ≤ e.hi.x ∧ y = heightAt e x := by
  have hd : 0 < e.hi.x - e.lo.x := by linarith
  rw [Segment.mem_iff he, cross_height h]
  constructor
  · rintro ⟨h1, h2, h3⟩
    refine ⟨?_, ?_, ?_⟩
    · rcases h2 with h2 | ⟨h2, -⟩
      · exact h2.le
      · exact h2.le
    · rcases h3 with h3 | ⟨h3, -⟩
      · exact h3.le
      · exact h3.le
    · rcases mul_eq_zero.1 h1 with h | h <;> linarith
  · rintro ⟨h1, h2, h3⟩
    refine ⟨by rw [h3]; ring, ?_, ?_⟩
    · rcases h1.eq_or_lt with e1 | e1
      · refine Or.inr ⟨e1, ?_⟩
        rw [h3]; unfold heightAt; rw [← e1]; simp
      · exact Or.inl e1
    · rcases h2.eq_or_lt with e1 | e1
      · refine Or.inr ⟨e1, ?_⟩
        rw [h3]; unfold heightAt; simp only [e1]
        rw [mul_comm, mul_div_assoc, div_self hd.ne']; linarith
      · exact Or.inl e1

theorem isBelow_height {e : Segment} {x y : ℚ} :
    IsBelow e ⟨x, y⟩ ↔ e.lo.x ≤ x ∧ x < e.hi.x ∧ heightAt e x < y := by
  unfold IsBelow
  constructor
  · rintro ⟨h1, h2, h3⟩
    have hx : e.lo.x < e.hi.x := lt_of_le_of_lt h1 h2
    rw [cross_height hx] at h3
    have := pos_of_mul_pos_right h3 (by linarith)
    exact ⟨h1, h2, by linarith⟩
  · rintro ⟨h1, h2, h3⟩
    have hx : e.lo.x < e.hi.x := lt_of_le_of_lt h1 h2
    rw [cross_height hx]
    exact ⟨h1, h2, mul_pos (by linarith) (by linarith)⟩

theorem not_isBelow_of_mem {e : Segment} (he : e.Proper) {m : Point} (hm : m ∈ e.pts) : ¬ IsBelow e m := by
  rintro ⟨-, -, h⟩
  rw [Segment.mem_iff he] at hm
  linarith [hm.1]

/-- Points of a segment on a vertical line which avoids the ends. -/
theorem mem_generic {e : Segment} (he : e.Proper) {x y : ℚ} (h1 : e.lo.x ≠ x) (h2 : e.hi.x ≠ x) :
    (⟨x, y⟩ : Point) ∈ e.pts ↔ e.lo.x < x ∧ x < e.hi.x ∧ y = heightAt e x := by
  by_cases h : e.lo.x < e.hi.x
  · rw [mem_height he h]
    constructor
    · rintro ⟨g1, g2, g3⟩; exact ⟨lt_of_le_of_ne g1 h1, lt_of_le_of_ne g2 h2.symm, g3⟩
    · rintro ⟨g1, g2, g3⟩; exact ⟨g1.le, g2.le, g3⟩
  · constructor
    · intro hm
      have e1 : e.lo.x = e.hi.x := le_antisymm (lo_x_le he) (not_lt.1 h)
      have a1 := Segment.lo_le_of_mem hm
      have a2 := Segment.le_hi_of_mem hm
      exfalso
      rcases a1 with a1 | ⟨a1, -⟩
      · rcases a2 with a2 | ⟨a2, -⟩
        · simp only at a1 a2; linarith
        · exact h2 a2.symm
      · exact h1 a1
    · rintro ⟨g1, g2, -⟩; exact absurd (g1.trans g2) h

/-- Going up on a vertical line which avoids the ends. -/
theorem isBelow_step {e : Segment} (he : e.Proper) {x y₁ y₀ : ℚ} (h1 : e.lo.x ≠ x) (h2 : e.hi.x ≠ x) (hy : y₁ < y₀)
    (hn : ∀ y, y₁ < y → y < y₀ → (⟨x, y⟩ : Point) ∉ e.pts) :
    ind (IsBelow e ⟨x, y₀⟩) = ind (IsBelow e ⟨x, y₁⟩) + ind ((⟨x, y₁⟩ : Point) ∈ e.pts) := by
  rw [← ind_or fun h => not_isBelow_of_mem he h.2 h.1]
  refine ind_congr ?_
  rw [isBelow_height, isBelow_height, mem_generic he h1 h2]
  constructor
  · rintro ⟨g1, g2, g3⟩
    rcases lt_trichotomy (heightAt e x) y₁ with g | g | g
    · exact Or.inl ⟨g1, g2, g⟩
    · exact Or.inr ⟨lt_of_le_of_ne g1 h1, g2, g.symm⟩
    · exact absurd ((mem_generic he h1 h2).2 ⟨lt_of_le_of_ne g1 h1, g2, rfl⟩) (hn _ g g3)
  · rintro (⟨g1, g2, g3⟩ | ⟨g1, g2, g3⟩)
    · exact ⟨g1, g2, g3.trans hy⟩
    · exact ⟨g1.le, g2, by rw [← g3]; exact hy⟩

theorem isBelow_of_mem {e : Segment} (he : e.Proper) {x y₁ y₀ : ℚ} (h1 : e.lo.x ≠ x) (h2 : e.hi.x ≠ x) (hy : y₁ < y₀)
    (hm : (⟨x, y₁⟩ : Point) ∈ e.pts) : IsBelow e ⟨x, y₀⟩ := by
  rw [mem_generic he h1 h2] at hm
  rw [isBelow_height]
  exact ⟨hm.1.le, hm.2.1, by rw [← hm.2.2]; exact hy⟩

/-- Moving a little to the right. -/
theorem isBelow_shift {e : Segment} (he : e.Proper) {q : Point} (hq : q ∉ e.pts) :
    ∃ δ > 0, ∀ d, 0 < d → d < δ → (IsBelow e ⟨q.x + d, q.y⟩ ↔ IsBelow e q) := by
  obtain ⟨x, y⟩ := q
  simp only
  by_cases h1 : e.lo.x ≤ x
  · by_cases h2 : x < e.hi.x
    · have hx : e.lo.x < e.hi.x := lt_of_le_of_lt h1 h2
      have hne : y ≠ heightAt e x := fun h => hq ((mem_height he hx).2 ⟨h1, h2.le, h⟩)
      set k := (e.hi.y - e.lo.y) / (e.hi.x - e.lo.x) with hk
      have hh : ∀ d, heightAt e (x + d) = heightAt e x + d * k := by
        intro d; unfold heightAt; rw [hk]; ring
      have pos : 0 < |y - heightAt e x| := abs_pos.2 (sub_ne_zero.2 hne)
      refine ⟨min (e.hi.x - x) (|y - heightAt e x| / (|k| + 1)), lt_min (by linarith) (by positivity), ?_⟩
      intro d d0 d1
      obtain ⟨d2, d3⟩ := lt_min_iff.1 d1
      rw [isBelow_height, isBelow_height, hh]
      have d4 : d * (|k| + 1) < |y - heightAt e x| := by
        rwa [lt_div_iff₀ (by positivity)] at d3
      have d5 : |d * k| < |y - heightAt e x| := by
        rw [abs_mul, abs_of_pos d0]; linarith
      have d6 := abs_lt.1 d5
      constructor
      · rintro ⟨-, -, g⟩
        refine ⟨h1, h2, ?_⟩
        by_contra hc
        push Not at hc
        have := abs_of_nonpos (sub_nonpos.2 hc)
        rw [this] at d6
        linarith [d6.1]
      · rintro ⟨-, -, g⟩
        refine ⟨by linarith, by linarith, ?_⟩
        have := abs_of_pos (sub_pos.2 g)
        rw [this] at d6
        linarith [d6.2]
    · refine ⟨1, by norm_num, fun d d0 _ => ?_⟩
      unfold IsBelow
      simp only
      constructor
      · rintro ⟨-, g, -⟩; exact absurd (by linarith) h2
      · rintro ⟨-, g, -⟩; exact absurd g h2
  · refine ⟨e.lo.x - x, by linarith, fun d d0 d1 => ?_⟩
    unfold IsBelow
    simp only
    constructor
    · rintro ⟨g, -, -⟩; linarith
    · rintro ⟨g, -, -⟩; exact absurd g h1

theorem inside_shift {E : List Segment} (hp : ∀ e ∈ E, e.Proper) {q : Point} (hq : q ∉ segsPts E) :
    ∃ δ > 0, ∀ d, 0 < d → d < δ → (Inside E ⟨q.x + d, q.y⟩ ↔ Inside E q) := by
  have : ∃ δ > 0, ∀ d, 0 < d → d < δ → ∀ e ∈ E, (IsBelow e ⟨q.x + d, q.y⟩ ↔ IsBelow e q) := by
    induction E with
    | nil => exact ⟨1, by norm_num, by simp⟩
    | cons e E ih =>
      obtain ⟨δ₁, p1, h1⟩ := isBelow_shift (hp e (by simp)) (q := q) fun h => hq ⟨e, by simp, h⟩
      obtain ⟨δ₂, p2, h2⟩ := ih (fun e he => hp e (by simp [he])) fun ⟨e, he, h⟩ => hq ⟨e, by simp [he], h⟩
      refine ⟨min δ₁ δ₂, lt_min p1 p2, fun d d0 d1 e' he' => ?_⟩
      rcases List.mem_cons.1 he' with rfl | he'
      · exact h1 d d0 (d1.trans_le (min_le_left _ _))
      · exact h2 d d0 (d1.trans_le (min_le_right _ _)) e' he'
  obtain ⟨δ, p, h⟩ := this
  refine ⟨δ, p, fun d d0 d1 => ?_⟩
  unfold Inside
  rw [List.countP_congr]
  intro e he
  simp only [decide_eq_true_eq]
  exact h d d0 d1 e he

/-- A point which is no vertex is on one edge at most. -/
theorem sum_mem {A B E : List Segment} (no : NoOverlap E) (hE : E ⊆ A ++ B) {m : Point} (hv : ¬ Vertex (A ++ B) m) :
    (E.map fun e => ind (m ∈ e.pts)).sum = ind (m ∈ segsPts E) := by
  induction E with
  | nil => rw [segsPts_nil]; simp [ind]
  | cons e E ih =>
    have ih := ih ⟨fun s hs => no.1 s (by simp [hs]), (List.pairwise_cons.1 no.2).2⟩ fun s hs => hE (by simp [hs])
    rw [List.map_cons, List.sum_cons, ih, ← ind_or]
    · refine ind_congr ?_
      constructor
      · rintro (h | ⟨s, hs, h⟩)
        · exact ⟨e, by simp, h⟩
        · exact ⟨s, by simp [hs], h⟩
      · rintro ⟨s, hs, h⟩
        rcases List.mem_cons.1 hs with rfl | hs
        · exact Or.inl h
        · exact Or.inr ⟨s, hs, h⟩
    · rintro ⟨h, s, hs, h'⟩
      have := (List.pairwise_cons.1 no.2).1 s hs
      refine hv (Or.inr ⟨e, hE (by simp), s, hE (by simp [hs]), ?_⟩)
      ext q
      constructor
      · rintro ⟨q1, q2⟩
        by_contra hne
        exact this ⟨q, m, hne, q1, h, q2, h'⟩
      · rintro rfl; exact ⟨h, h'⟩

namespace Overlay

variable {A B T : List Segment} {op : Prop → Prop → Prop} (O : Overlay A B T op)
include O

theorem proper' : ∀ e ∈ A ++ B, e.Proper := fun e he => (List.mem_append.1 he).elim (O.hA.noOverlap.1 e) (O.hB.noOverlap.1 e)

/-- A vertical line which avoids the vertices. -/
theorem line {x : ℚ} (hx : ∀ v, Vertex (A ++ B) v → v.x ≠ x) (y : ℚ) :
    Inside T ⟨x, y⟩ ↔ op (Inside A ⟨x, y⟩) (Inside B ⟨x, y⟩) := by
  classical
  have gen : ∀ e ∈ A ++ B, e.lo.x ≠ x ∧ e.hi.x ≠ x := fun e he =>
    ⟨hx _ (Or.inl ⟨e, he, Segment.isEnd_iff.2 (Or.inl rfl)⟩), hx _ (Or.inl ⟨e, he, Segment.isEnd_iff.2 (Or.inr rfl)⟩)⟩
  have genT : ∀ t ∈ T, t.lo.x ≠ x ∧ t.hi.x ≠ x := by
    intro t ht
    have := O.ends t ht
    rcases t.lo_hi_cases with ⟨h1, h2, -⟩ | ⟨h1, h2, -⟩ <;> rw [h1, h2]
    · exact ⟨hx _ this.1, hx _ this.2⟩
    · exact ⟨hx _ this.2, hx _ this.1⟩
  induction hn : (A ++ B).countP (fun e => decide (IsBelow e ⟨x, y⟩)) using Nat.strong_induction_on generalizing y with
  | _ n ih =>
  by_cases hz : ∃ e ∈ A ++ B, IsBelow e ⟨x, y⟩
  · -- the highest edge below
    obtain ⟨e, he, hmax⟩ := Finset.exists_max_image ((A ++ B).filter fun e => decide (IsBelow e ⟨x, y⟩)).toFinset
      (fun e => heightAt e x) (by
        obtain ⟨e, he, h⟩ := hz
        exact ⟨e, by rw [List.mem_toFinset, List.mem_filter]; exact ⟨he, by simpa using h⟩⟩)
    rw [List.mem_toFinset, List.mem_filter, decide_eq_true_eq] at he
    obtain ⟨he, hb⟩ := he
    have pe := O.proper' e he
    rw [isBelow_height] at hb
    set y₁ := heightAt e x with hy₁
    have hm : (⟨x, y₁⟩ : Point) ∈ e.pts := (mem_generic pe (gen e he).1 (gen e he).2).2
      ⟨lt_of_le_of_ne hb.1 (gen e he).1, hb.2.1, rfl⟩
    have free : ∀ e' ∈ A ++ B, ∀ y', y₁ < y' → y' < y → (⟨x, y'⟩ : Point) ∉ e'.pts := by
      intro e' he' y' h1 h2 hm'
      have hb' := isBelow_of_mem (O.proper' e' he') (gen e' he').1 (gen e' he').2 h2 hm'
      have := hmax e' (by rw [List.mem_toFinset, List.mem_filter]; exact ⟨he', by simpa using hb'⟩)
      rw [mem_generic (O.proper' e' he') (gen e' he').1 (gen e' he').2] at hm'
      rw [← hm'.2.2] at this
      linarith
    have freeT : ∀ t ∈ T, ∀ y', y₁ < y' → y' < y → (⟨x, y'⟩ : Point) ∉ t.pts := by
      intro t ht y' h1 h2 hm'
      obtain ⟨e', he', hs⟩ := O.sub t ht
      exact free e' he' y' h1 h2 (hs hm')
    have step : ∀ {E : List Segment}, (∀ e ∈ E, e.Proper) → (∀ e ∈ E, e.lo.x ≠ x ∧ e.hi.x ≠ x) →
        (∀ e ∈ E, ∀ y', y₁ < y' → y' < y → (⟨x, y'⟩ : Point) ∉ e.pts) →
        ind (Inside E ⟨x, y⟩) = ind (Inside E ⟨x, y₁⟩) + (E.map fun e => ind ((⟨x, y₁⟩ : Point) ∈ e.pts)).sum := by
      intro E h1 h2 h3
      rw [inside_sum, inside_sum, ← List.sum_map_add]
      congr 1
      refine List.map_congr_left fun e he => ?_
      exact isBelow_step (h1 e he) (h2 e he).1 (h2 e he).2 hb.2.2 (h3 e he)
    have hv : ¬ Vertex (A ++ B) ⟨x, y₁⟩ := fun h => hx _ h rfl
    have sA := step O.hA.noOverlap.1 (fun e he => gen e (List.mem_append_left _ he))
      fun e he => free e (List.mem_append_left _ he)
    have sB := step O.hB.noOverlap.1 (fun e he => gen e (List.mem_append_right _ he))
      fun e he => free e (List.mem_append_right _ he)
    have sT := step O.proper genT freeT
    rw [sum_mem O.hA.noOverlap (List.subset_append_left _ _) hv] at sA
    rw [sum_mem O.hB.noOverlap (List.subset_append_right _ _) hv] at sB
    rw [O.key _ hv] at sT
    have less : (A ++ B).countP (fun e => decide (IsBelow e ⟨x, y₁⟩)) < n := by
      rw [← hn]
      have h1 : ∀ e' ∈ A ++ B, IsBelow e' ⟨x, y₁⟩ → IsBelow e' ⟨x, y⟩ := by
        intro e' he' h
        rw [isBelow_height] at h ⊢
        exact ⟨h.1, h.2.1, h.2.2.trans hb.2.2⟩
      obtain ⟨l₁, l₂, hl⟩ := List.append_of_mem he
      rw [hl] at h1 ⊢
      rw [List.countP_append, List.countP_append, List.countP_cons, List.countP_cons]
      have n1 : ¬ IsBelow e ⟨x, y₁⟩ := not_isBelow_of_mem pe hm
      have n2 : IsBelow e ⟨x, y⟩ := (isBelow_height).2 hb
      have c1 := List.countP_mono_left (l := l₁) (p := fun e => decide (IsBelow e ⟨x, y₁⟩))
        (q := fun e => decide (IsBelow e ⟨x, y⟩)) fun e' he' h => by
          rw [decide_eq_true_eq] at h ⊢; exact h1 e' (by simp [he']) h
      have c2 := List.countP_mono_left (l := l₂) (p := fun e => decide (IsBelow e ⟨x, y₁⟩))
        (q := fun e => decide (IsBelow e ⟨x, y⟩)) fun e' he' h => by
          rw [decide_eq_true_eq] at h ⊢; exact h1 e' (by simp [he']) h
      simp only [n1, n2, decide_true, decide_false, if_true, Bool.false_eq_true, if_false]
      omega
    have := ih _ less y₁ rfl
    have xA : Inside A ⟨x, y⟩ ↔ Xor (Inside A ⟨x, y₁⟩) ((⟨x, y₁⟩ : Point) ∈ segsPts A) := by
      refine ind_eq_one.symm.trans ?_
      rw [sA, ind_add_iff]; unfold Xor; tauto
    have xB : Inside B ⟨x, y⟩ ↔ Xor (Inside B ⟨x, y₁⟩) ((⟨x, y₁⟩ : Point) ∈ segsPts B) := by
      refine ind_eq_one.symm.trans ?_
      rw [sB, ind_add_iff]; unfold Xor; tauto
    refine ind_eq_one.symm.trans ?_
    rw [propext xA, propext xB, sT, ind_congr this, ← add_assoc, CharTwo.add_self_eq_zero, zero_add, ind_eq_one]
  · push Not at hz
    have none : ∀ {E : List Segment}, (∀ e ∈ E, ¬ IsBelow e ⟨x, y⟩) → ¬ Inside E ⟨x, y⟩ := by
      intro E h
      unfold Inside
      rw [List.countP_eq_zero.2]
      · simp
      · intro e he; simpa using h e he
    have nA := none (E := A) fun e he => hz e (List.mem_append_left _ he)
    have nB := none (E := B) fun e he => hz e (List.mem_append_right _ he)
    have nT : ¬ Inside T ⟨x, y⟩ := none fun t ht hb => by
      obtain ⟨e, he, hs⟩ := O.sub t ht
      have pt := O.proper t ht
      rw [isBelow_height] at hb
      have := hs ((mem_generic pt (genT t ht).1 (genT t ht).2).2 ⟨lt_of_le_of_ne hb.1 (genT t ht).1, hb.2.1, rfl⟩)
      exact hz e he (isBelow_of_mem (O.proper' e he) (gen e he).1 (gen e he).2 hb.2.2 this)
    have e1 : Inside A ⟨x, y⟩ = False := propext (iff_false_intro nA)
    have e2 : Inside B ⟨x, y⟩ = False := propext (iff_false_intro nB)
    rw [e1, e2]
    exact iff_of_false nT O.zero

theorem sub_pts : segsPts T ⊆ segsPts A ∪ segsPts B := by
  rintro q ⟨t, ht, hq⟩
  obtain ⟨e, he, hs⟩ := O.sub t ht
  rcases List.mem_append.1 he with h | h
  · exact Or.inl ⟨e, h, hs hq⟩
  · exact Or.inr ⟨e, h, hs hq⟩

/-- The even-odd rule of the separating edges is the combination. -/
theorem inside {q : Point} (hA : q ∉ segsPts A) (hB : q ∉ segsPts B) :
    Inside T q ↔ op (Inside A q) (Inside B q) := by
  have hT : q ∉ segsPts T := fun h => (O.sub_pts h).elim hA hB
  obtain ⟨δ₁, p1, h1⟩ := inside_shift O.hA.noOverlap.1 hA
  obtain ⟨δ₂, p2, h2⟩ := inside_shift O.hB.noOverlap.1 hB
  obtain ⟨δ₃, p3, h3⟩ := inside_shift O.proper hT
  have fin : ((fun v : Point => v.x - q.x) '' {v | Vertex (A ++ B) v}).Finite := (vertex_finite _).image _
  obtain ⟨d, ⟨d0, d1⟩, hd⟩ := (Set.Ioo_infinite (lt_min p1 (lt_min p2 p3))).exists_notMem_finite fin
  obtain ⟨e1, e2⟩ := lt_min_iff.1 d1
  obtain ⟨e2, e3⟩ := lt_min_iff.1 e2
  rw [← h3 d d0 e3, O.line ?_, propext (h1 d d0 e1), propext (h2 d d0 e2)]
  intro v hv e
  exact hd ⟨v, hv, by simp only [e]; ring⟩

end Overlay

end Clipping

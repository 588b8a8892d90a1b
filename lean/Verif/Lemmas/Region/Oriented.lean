import Verif.Lemmas.Region.Vertex
import Verif.Lemmas.LinearResult
import Verif.Lemmas.Arrangement
import Verif.Spec.Polygon
import Verif.Model.Contours

/-!
# Oriented edges of a simple contour have the interior on the left
-/

namespace Clipping

open Sweep

/-- Vertices of a simple closed curve, with indices modulo `n`. -/
structure Cyc (n : ℕ) (p : ℕ → Point) : Prop where
  three : 3 ≤ n
  period : ∀ i, p (i + n) = p i
  inj : ∀ i j, p i = p j → i ≡ j [MOD n]
  ends : ∀ i j, ¬ i ≡ j [MOD n] → ∀ q, q ∈ (Segment.mk (p i) (p (i + 1))).pts →
    q ∈ (Segment.mk (p j) (p (j + 1))).pts →
    (Segment.mk (p i) (p (i + 1))).IsEnd q ∧ (Segment.mk (p j) (p (j + 1))).IsEnd q

/-- `n` edges from the index `k` on -/
def cycEdges (p : ℕ → Point) (k n : ℕ) : List Segment := (List.range n).map fun i => ⟨p (k + i), p (k + i + 1)⟩

theorem cycEdges_succ (p : ℕ → Point) (k n : ℕ) :
    cycEdges p k (n + 1) = ⟨p k, p (k + 1)⟩ :: cycEdges p (k + 1) n := by
  unfold cycEdges
  rw [List.range_succ_eq_map, List.map_cons, List.map_map]
  congr 1
  apply List.map_congr_left
  intro i _
  simp only [Function.comp, Nat.succ_eq_add_one]
  rw [show k + (i + 1) = k + 1 + i by ring]

theorem cycEdges_succ' (p : ℕ → Point) (k n : ℕ) :
    cycEdges p k (n + 1) = cycEdges p k n ++ [⟨p (k + n), p (k + n + 1)⟩] := by
  unfold cycEdges
  rw [List.range_succ, List.map_append]; rfl

theorem mem_cycEdges {p : ℕ → Point} {k n : ℕ} {e : Segment} :
    e ∈ cycEdges p k n ↔ ∃ i < n, e = ⟨p (k + i), p (k + i + 1)⟩ := by
  unfold cycEdges
  simp only [List.mem_map, List.mem_range]
  constructor
  · rintro ⟨i, h, rfl⟩; exact ⟨i, h, rfl⟩
  · rintro ⟨i, h, rfl⟩; exact ⟨i, h, rfl⟩

theorem not_modEq_add {n a b : ℕ} (hb : 0 < b) (hn : b < n) : ¬ a ≡ a + b [MOD n] := by
  intro h
  have h' : a + 0 ≡ a + b [MOD n] := by simpa using h
  have := Nat.ModEq.add_left_cancel' a h'
  unfold Nat.ModEq at this
  rw [Nat.mod_eq_of_lt hn, Nat.zero_mod] at this
  omega

/-- Points on the same side of `v` on the same line. -/
theorem same_ray {u v w : Point} (h : v < u ∧ v < w ∨ u < v ∧ w < v) (hc : cross v u w = 0) :
    u ∈ (Segment.mk v w).pts ∨ w ∈ (Segment.mk v u).pts := by
  have hc' : cross v w u = 0 := by have : cross v w u = - cross v u w := by unfold cross; ring
                                   rw [this, hc, neg_zero]
  rcases h with ⟨h1, h2⟩ | ⟨h1, h2⟩
  · rcases le_total u w with h | h
    · exact Or.inl ((Segment.mem_mk_iff h2).2 ⟨hc', h1.le, h⟩)
    · exact Or.inr ((Segment.mem_mk_iff h1).2 ⟨hc, h2.le, h⟩)
  · rcases le_total u w with h | h
    · right
      rw [Segment.pts_swap]
      exact (Segment.mem_mk_iff h1).2 ⟨by rw [cross_swap, hc, neg_zero], h, h2.le⟩
    · left
      rw [Segment.pts_swap]
      exact (Segment.mem_mk_iff h2).2 ⟨by rw [cross_swap, hc', neg_zero], h, h1.le⟩

theorem ind_add_iff {P Q : Prop} : ind P + ind Q = 1 ↔ (P ↔ ¬ Q) := by
  by_cases hp : P <;> by_cases hq : Q
  · rw [ind_pos hp, ind_pos hq]; simp only [hp, hq]; decide
  · rw [ind_pos hp, ind_neg hq]; simp [hp, hq]
  · rw [ind_neg hp, ind_pos hq]; simp [hp, hq]
  · rw [ind_neg hp, ind_neg hq]; simp [hp, hq]

theorem turn_logic {I A B X T T' : Prop} (h : T ↔ (¬ A ∧ B ∧ X) ∨ (A ∧ ¬ B ∧ ¬ X))
    (h' : T' ↔ (B ∧ ¬ A ∧ ¬ X) ∨ (¬ B ∧ A ∧ X)) : (A ↔ ¬ (I ↔ ¬ T)) ↔ (B ↔ ¬ (I ↔ ¬ T')) := by
  rw [h, h']
  by_cases a : A <;> by_cases b : B <;> by_cases x : X <;> by_cases i : I <;> simp [a, b, x, i]

namespace Cyc

variable {n : ℕ} {p : ℕ → Point} (C : Cyc n p)

include C

theorem rotate (k : ℕ) : (cycEdges p k n).Perm (cycEdges p 0 n) := by
  induction k with
  | zero => exact List.Perm.refl _
  | succ k ih =>
    refine List.Perm.trans ?_ ih
    obtain ⟨n', rfl⟩ : ∃ n', n = n' + 1 := ⟨n - 1, by have := C.three; omega⟩
    rw [cycEdges_succ p k, cycEdges_succ' p (k + 1)]
    have e1 : p (k + 1 + n') = p k := by
      have := C.period k
      rw [← this]; congr 1; ring
    have e2 : p (k + 1 + n' + 1) = p (k + 1) := by
      have := C.period (k + 1)
      rw [← this]; congr 1
    rw [e1, e2]
    exact List.perm_append_comm

theorem proper (i : ℕ) : p i ≠ p (i + 1) := by
  intro h
  exact not_modEq_add Nat.one_pos (by have := C.three; omega) (C.inj _ _ h)

theorem all_proper (k l : ℕ) : ∀ e ∈ cycEdges p k l, e.Proper := by
  intro e he
  obtain ⟨i, -, rfl⟩ := mem_cycEdges.1 he
  exact C.proper _

theorem even (k : ℕ) (q : Point) : Even (degree (cycEdges p k n) q) := by
  unfold degree cycEdges
  rw [List.countP_map, List.countP_map]
  have h1 : ((fun e : Segment => decide (e.start = q)) ∘ fun i => (⟨p (k + i), p (k + i + 1)⟩ : Segment)) =
      fun i => decide (p (k + i) = q) := rfl
  have h2 : ((fun e : Segment => decide (e.stop = q)) ∘ fun i => (⟨p (k + i), p (k + i + 1)⟩ : Segment)) =
      fun i => decide (p (k + i + 1) = q) := rfl
  rw [h1, h2]
  have h3 : ∀ m, (List.range m).countP (fun i => decide (p (k + i) = q)) + (if p (k + m) = q then 1 else 0) =
      (List.range m).countP (fun i => decide (p (k + i + 1) = q)) + (if p k = q then 1 else 0) := by
    intro m
    induction m with
    | zero => simp
    | succ m ih =>
      rw [List.range_succ, List.countP_append, List.countP_append]
      simp only [List.countP_cons, List.countP_nil, decide_eq_true_eq]
      have : k + (m + 1) = k + m + 1 := by ring
      rw [this]
      omega
  have := h3 n
  rw [C.period] at this
  have e : (List.range n).countP (fun i => decide (p (k + i) = q)) =
      (List.range n).countP (fun i => decide (p (k + i + 1) = q)) := by omega
  rw [e]
  exact ⟨_, rfl⟩

theorem endsOnly (k : ℕ) : EndsOnly (cycEdges p k n) := by
  unfold EndsOnly cycEdges
  rw [List.pairwise_map]
  refine List.Pairwise.imp_of_mem ?_ (List.pairwise_lt_range (n := n))
  intro i j hi hj hij q h1 h2
  refine C.ends (k + i) (k + j) ?_ q h1 h2
  rw [List.mem_range] at hj
  have : k + j = k + i + (j - i) := by omega
  rw [this]
  exact not_modEq_add (by omega) (by omega)

/-- edges which are not incident to the vertex -/
theorem off (k : ℕ) {l : ℕ} (hl : l + 2 = n) : p (k + 1) ∉ segsPts (cycEdges p (k + 2) l) := by
  rintro ⟨e, he, hv⟩
  obtain ⟨i, hi, rfl⟩ := mem_cycEdges.1 he
  have h1 : ¬ k ≡ k + 2 + i [MOD n] := by
    rw [show k + 2 + i = k + (2 + i) by ring]; exact not_modEq_add (by omega) (by omega)
  obtain ⟨-, h | h⟩ := C.ends k (k + 2 + i) h1 _ (Segment.stop_mem _) hv
  · have := C.inj _ _ h
    rw [show k + 2 + i = k + 1 + (1 + i) by ring] at this
    exact not_modEq_add (by omega) (by omega) this
  · have := C.inj _ _ h
    rw [show k + 2 + i + 1 = k + 1 + (2 + i) by ring] at this
    exact not_modEq_add (by omega) (by omega) this

/-- from an inner point of an edge to one of its ends -/
theorem off_path (k : ℕ) {l : ℕ} (hl : l + 2 = n) {m : Point} {j : ℕ} (hj : j = k ∨ j = k + 1)
    (hm : m ∈ (Segment.mk (p j) (p (j + 1))).pts) (hi : ¬ (Segment.mk (p j) (p (j + 1))).IsEnd m) :
    ∀ q ∈ (Segment.mk (p (k + 1)) m).pts, q ∉ segsPts (cycEdges p (k + 2) l) := by
  intro q hq hs
  have hv : p (k + 1) ∈ (Segment.mk (p j) (p (j + 1))).pts := by
    rcases hj with rfl | rfl
    · exact Segment.stop_mem _
    · exact Segment.start_mem _
  have hqe := mk_sub hv hm hq
  have : (Segment.mk (p j) (p (j + 1))).IsEnd q := by
    obtain ⟨e, he, hs'⟩ := hs
    obtain ⟨i, hi, rfl⟩ := mem_cycEdges.1 he
    refine (C.ends j (k + 2 + i) ?_ q hqe hs').1
    rcases hj with rfl | rfl
    · rw [show j + 2 + i = j + (2 + i) by ring]; exact not_modEq_add (by omega) (by omega)
    · rw [show k + 2 + i = k + 1 + (1 + i) by ring]; exact not_modEq_add (by omega) (by omega)
  have := end_between (s := ⟨p j, p (j + 1)⟩) (C.proper j) hm hi hv hq this
  subst this
  exact C.off k hl hs

theorem turn (k : ℕ) : p k < p (k + 1) ∧ p (k + 2) < p (k + 1) ∨ p (k + 1) < p k ∧ p (k + 1) < p (k + 2) →
    cross (p (k + 1)) (p k) (p (k + 2)) ≠ 0 := by
  intro h hc
  have three := C.three
  have ne : p k ≠ p (k + 2) := fun h => not_modEq_add (by omega) (by omega) (C.inj _ _ h)
  have nm : ¬ k ≡ k + 1 [MOD n] := not_modEq_add (by omega) (by omega)
  rcases same_ray h.symm hc with h' | h'
  · obtain ⟨-, h1 | h1⟩ := C.ends k (k + 1) nm _ (Segment.start_mem _) h'
    · exact C.proper k h1
    · exact ne h1
  · rw [Segment.pts_swap] at h'
    obtain ⟨h1 | h1, -⟩ := C.ends k (k + 1) nm _ h' (Segment.stop_mem _)
    · exact ne h1.symm
    · exact C.proper (k + 1) h1.symm

theorem parity (k : ℕ) {l : ℕ} (hl : l + 2 = n) {m : Point}
    (hm : m ∈ (Segment.mk (p k) (p (k + 1))).pts) (hi : ¬ (Segment.mk (p k) (p (k + 1))).IsEnd m) :
    ind (Inside (cycEdges p 0 n) m) = ind (Inside (cycEdges p (k + 2) l) (p (k + 1))) +
      ind (TurnBelow (p k) (p (k + 1)) (p (k + 2))) := by
  rw [ind_congr (inside_perm (C.rotate k) m).symm]
  rw [← hl, cycEdges_succ, cycEdges_succ]
  refine vertex_parity (C.all_proper _ _) (C.proper k) (C.proper (k + 1)).symm ?_ (fun h => hi (Or.inr h))
    (fun h => hi (Or.inl h)) ?_ (C.off_path k hl (Or.inl rfl) hm hi) ?_
  · rw [Segment.pts_swap]; exact hm
  · intro q
    have := C.even k q
    rw [← hl, cycEdges_succ, cycEdges_succ] at this
    unfold degree at this ⊢
    simp only [List.countP_cons, decide_eq_true_eq] at this ⊢
    rw [Nat.even_iff] at this ⊢
    omega
  · intro h; exact C.turn k h.symm

theorem parity' (k : ℕ) {l : ℕ} (hl : l + 2 = n) {m : Point}
    (hm : m ∈ (Segment.mk (p (k + 1)) (p (k + 2))).pts) (hi : ¬ (Segment.mk (p (k + 1)) (p (k + 2))).IsEnd m) :
    ind (Inside (cycEdges p 0 n) m) = ind (Inside (cycEdges p (k + 2) l) (p (k + 1))) +
      ind (TurnBelow (p (k + 2)) (p (k + 1)) (p k)) := by
  rw [ind_congr (inside_perm (C.rotate k) m).symm]
  rw [← hl, cycEdges_succ, cycEdges_succ]
  rw [← vertex_parity (E := cycEdges p (k + 2) l) (C.all_proper _ _) (C.proper (k + 1)).symm (C.proper k) hm
    (fun h => hi (Or.inl h)) (fun h => hi (Or.inr h)) ?_ (C.off_path k hl (Or.inr rfl) hm hi) ?_]
  · rw [inside_sum, inside_sum]
    simp only [List.map_cons, List.sum_cons]
    rw [ind_congr (isBelow_swap ⟨p k, p (k + 1)⟩ m).symm, ind_congr (isBelow_swap ⟨p (k + 1), p (k + 1 + 1)⟩ m).symm]
    unfold Segment.swap
    ring
  · intro q
    have := C.even k q
    rw [← hl, cycEdges_succ, cycEdges_succ] at this
    unfold degree at this ⊢
    simp only [List.countP_cons, decide_eq_true_eq] at this ⊢
    rw [Nat.even_iff] at this ⊢
    simp only [show k + 1 + 1 = k + 2 from rfl] at this ⊢
    omega
  · intro h
    have := C.turn k (by tauto)
    intro h0
    apply this
    have : cross (p (k + 1)) (p k) (p (k + 2)) = - cross (p (k + 1)) (p (k + 2)) (p k) := by unfold cross; ring
    rw [this, h0, neg_zero]

/-- the interior is on the left of the edge near `m` -/
def _root_.Clipping.LeftAt (n : ℕ) (p : ℕ → Point) (k : ℕ) (m : Point) : Prop :=
  p k < p (k + 1) ↔ ¬ Inside (cycEdges p 0 n) m

theorem step (k : ℕ) {m m' : Point}
    (hm : m ∈ (Segment.mk (p k) (p (k + 1))).pts) (hi : ¬ (Segment.mk (p k) (p (k + 1))).IsEnd m)
    (hm' : m' ∈ (Segment.mk (p (k + 1)) (p (k + 2))).pts)
    (hi' : ¬ (Segment.mk (p (k + 1)) (p (k + 2))).IsEnd m') : LeftAt n p k m ↔ LeftAt n p (k + 1) m' := by
  obtain ⟨l, hl⟩ : ∃ l, l + 2 = n := ⟨n - 2, by have := C.three; omega⟩
  have h1 := C.parity k hl hm hi
  have h2 := C.parity' k hl hm' hi'
  have e1 : Inside (cycEdges p 0 n) m ↔ (Inside (cycEdges p (k + 2) l) (p (k + 1)) ↔
      ¬ TurnBelow (p k) (p (k + 1)) (p (k + 2))) := by
    rw [← ind_add_iff, ← h1, ind_eq_one]
  have e2 : Inside (cycEdges p 0 n) m' ↔ (Inside (cycEdges p (k + 2) l) (p (k + 1)) ↔
      ¬ TurnBelow (p (k + 2)) (p (k + 1)) (p k)) := by
    rw [← ind_add_iff, ← h2, ind_eq_one]
  have hc : cross (p (k + 1)) (p (k + 2)) (p k) = - cross (p (k + 1)) (p k) (p (k + 2)) := by unfold cross; ring
  have t := C.turn k
  have na : p (k + 1) < p k ↔ ¬ p k < p (k + 1) :=
    ⟨fun h => h.asymm, fun h => lt_of_le_of_ne (not_lt.1 h) (C.proper k).symm⟩
  have nb : p (k + 2) < p (k + 1) ↔ ¬ p (k + 1) < p (k + 2) :=
    ⟨fun h => h.asymm, fun h => lt_of_le_of_ne (not_lt.1 h) (C.proper (k + 1)).symm⟩
  unfold LeftAt
  rw [e1, e2]
  refine turn_logic (X := cross (p (k + 1)) (p k) (p (k + 2)) < 0) ?_ ?_
  · unfold TurnBelow
    rw [na, nb]
    refine or_congr Iff.rfl (and_congr_right fun h1 => and_congr_right fun h2 => ?_)
    have t' := t (Or.inl ⟨h1, nb.2 h2⟩)
    exact ⟨fun h => h.asymm, fun h => lt_of_le_of_ne (not_lt.1 h) t'.symm⟩
  · unfold TurnBelow
    rw [na, nb, hc, neg_lt_zero, neg_pos]
    refine or_congr (and_congr_right fun h1 => and_congr_right fun h2 => ?_) Iff.rfl
    have t' := t (Or.inr ⟨na.2 h2, h1⟩)
    exact ⟨fun h => h.asymm, fun h => lt_of_le_of_ne (not_lt.1 h) t'.symm⟩

theorem inner (k : ℕ) : ∃ m ∈ (Segment.mk (p k) (p (k + 1))).pts, ¬ (Segment.mk (p k) (p (k + 1))).IsEnd m :=
  exists_inner (e := ⟨p k, p (k + 1)⟩) (C.proper k)

theorem same (k : ℕ) {m m' : Point}
    (hm : m ∈ (Segment.mk (p 0) (p 1)).pts) (hi : ¬ (Segment.mk (p 0) (p 1)).IsEnd m)
    (hm' : m' ∈ (Segment.mk (p k) (p (k + 1))).pts)
    (hi' : ¬ (Segment.mk (p k) (p (k + 1))).IsEnd m') : LeftAt n p 0 m ↔ LeftAt n p k m' := by
  induction k generalizing m' with
  | zero =>
    obtain ⟨m1, h1, h2⟩ := C.inner 1
    rw [C.step 0 hm hi h1 h2, ← C.step 0 hm' hi' h1 h2]
  | succ k ih =>
    obtain ⟨m1, h1, h2⟩ := C.inner k
    rw [ih h1 h2]
    exact C.step k h1 h2 hm' hi'

/-- at the least vertex -/
theorem least (k : ℕ) (hk : ∀ i, p (k + 1) ≤ p i) {m : Point}
    (hm : m ∈ (Segment.mk (p k) (p (k + 1))).pts) (hi : ¬ (Segment.mk (p k) (p (k + 1))).IsEnd m) :
    cross (p k) (p (k + 1)) (p (k + 2)) ≠ 0 ∧
    (LeftAt n p k m ↔ 0 < cross (p k) (p (k + 1)) (p (k + 2))) := by
  obtain ⟨l, hl⟩ : ∃ l, l + 2 = n := ⟨n - 2, by have := C.three; omega⟩
  have h1 := C.parity k hl hm hi
  have h0 : ¬ Inside (cycEdges p (k + 2) l) (p (k + 1)) := by
    have : ind (Inside (cycEdges p (k + 2) l) (p (k + 1))) = 0 := by
      rw [inside_sum]
      apply List.sum_eq_zero
      intro z hz
      obtain ⟨e, he, rfl⟩ := List.mem_map.1 hz
      apply ind_neg
      rintro ⟨g1, g2, g3⟩
      obtain ⟨i, -, rfl⟩ := mem_cycEdges.1 he
      have hlo : p (k + 1) ≤ (Segment.mk (p (k + 2 + i)) (p (k + 2 + i + 1))).lo := le_min (hk _) (hk _)
      set a := (Segment.mk (p (k + 2 + i)) (p (k + 2 + i + 1))).lo
      set b := (Segment.mk (p (k + 2 + i)) (p (k + 2 + i + 1))).hi
      rw [Point.le_def] at hlo
      rcases hlo with h | ⟨h, h'⟩
      · linarith
      · unfold cross at g3
        rw [h] at g3 g2
        nlinarith
    intro h
    rw [ind_pos h] at this
    exact absurd this (by decide)
  rw [ind_neg h0, zero_add] at h1
  have a : p (k + 1) < p k := lt_of_le_of_ne (hk _) (C.proper k).symm
  have b : p (k + 1) < p (k + 2) := lt_of_le_of_ne (hk _) (C.proper (k + 1))
  have t := C.turn k (Or.inr ⟨a, b⟩)
  have hc : cross (p k) (p (k + 1)) (p (k + 2)) = - cross (p (k + 1)) (p k) (p (k + 2)) := by unfold cross; ring
  have e1 : Inside (cycEdges p 0 n) m ↔ TurnBelow (p k) (p (k + 1)) (p (k + 2)) := by
    rw [← ind_eq_one (P := Inside _ _), h1, ind_eq_one]
  rw [hc]
  refine ⟨neg_ne_zero.2 t, ?_⟩
  unfold LeftAt
  rw [e1, neg_pos]
  unfold TurnBelow
  simp only [a, a.asymm, b, b.asymm]
  tauto

end Cyc

end Clipping

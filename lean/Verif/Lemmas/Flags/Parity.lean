import Verif.Lemmas.Sweep.Steps2
import Mathlib.Data.ZMod.Basic
import Mathlib.Algebra.CharP.Two
import Mathlib.Algebra.BigOperators.Group.Finset.Basic
import Mathlib.Algebra.BigOperators.Ring.Finset

/-!
# Parity of the number of segments below

The side of a region on which a place lies is the parity of the number of edges of the region below
it.  This file has the parity for the abstract sweep and what it does along a segment.
-/

namespace Clipping.Sweep

/-- one if the proposition holds, zero otherwise, modulo two -/
noncomputable def ind (P : Prop) : ZMod 2 := open Classical in if P then 1 else 0

theorem ind_pos {P : Prop} (h : P) : ind P = 1 := by unfold ind; rw [if_pos h]
theorem ind_neg {P : Prop} (h : ¬ P) : ind P = 0 := by unfold ind; rw [if_neg h]
theorem ind_congr {P Q : Prop} (h : P ↔ Q) : ind P = ind Q := by rw [propext h]

theorem ind_or {P Q : Prop} (h : ¬ (P ∧ Q)) : ind (P ∨ Q) = ind P + ind Q := by
  by_cases hp : P <;> by_cases hq : Q
  · exact absurd ⟨hp, hq⟩ h
  · rw [ind_pos (Or.inl hp), ind_pos hp, ind_neg hq]; rfl
  · rw [ind_pos (Or.inr hq), ind_neg hp, ind_pos hq]; rfl
  · rw [ind_neg (by tauto), ind_neg hp, ind_neg hq]; rfl

theorem ind_not (P : Prop) : ind (¬ P) = ind P + 1 := by
  by_cases hp : P
  · rw [ind_pos hp, ind_neg (by tauto)]; rfl
  · rw [ind_neg hp, ind_pos hp]; rfl

theorem ind_eq_one {P : Prop} : ind P = 1 ↔ P := by
  by_cases hp : P
  · rw [ind_pos hp]; simp [hp]
  · rw [ind_neg hp]; simp [hp]

theorem ind_eq_zero {P : Prop} : ind P = 0 ↔ ¬ P := by
  by_cases hp : P
  · rw [ind_pos hp]; simp [hp]
  · rw [ind_neg hp]; simp [hp]

theorem two_eq (x : ZMod 2) : x = 0 ∨ x = 1 := by
  revert x; decide

/-- `s` is below `t` just after `c` -/
def Bel (c : ℚ) (s t : Seg) : Prop :=
  s.y c < t.y c ∨ (s.y c = t.y c ∧ (s.m < t.m ∨ (s.m = t.m ∧ s.ff = true ∧ t.ff = false)))

/-- `c` or the place just after it belongs to the segment -/
def Act (c : ℚ) (s : Seg) : Prop := s.a ≤ c ∧ c < s.b

theorem Bel.trans {c : ℚ} {s t r : Seg} (h : Bel c s t) (g : Bel c t r) : Bel c s r := by
  unfold Bel at *
  rcases h with h | ⟨h, h' | ⟨h', h1, h2⟩⟩ <;> rcases g with g | ⟨g, g' | ⟨g', g1, g2⟩⟩
  · left; linarith
  · left; linarith
  · left; linarith
  · left; linarith
  · right; exact ⟨h.trans g, Or.inl (by linarith)⟩
  · right; exact ⟨h.trans g, Or.inl (by linarith)⟩
  · left; linarith
  · right; exact ⟨h.trans g, Or.inl (by linarith)⟩
  · rw [h2] at g1; cases g1

theorem Bel.irrefl {c : ℚ} {s : Seg} : ¬ Bel c s s := by
  unfold Bel
  rintro (h | ⟨-, h | ⟨-, h1, h2⟩⟩)
  · linarith
  · linarith
  · rw [h1] at h2; cases h2

theorem Bel.asymm {c : ℚ} {s t : Seg} (h : Bel c s t) : ¬ Bel c t s := fun g => (h.trans g).irrefl

/-- Only the line and the operand of the upper segment matter. -/
theorem bel_congr {c : ℚ} {s t t' : Seg} (hm : t'.m = t.m) (hk : t'.k = t.k) (hf : t'.ff = t.ff) :
    Bel c s t' ↔ Bel c s t := by
  unfold Bel
  rw [y_congr hm hk, hm, hf]

theorem bel_congr_left {c : ℚ} {s s' t : Seg} (hm : s'.m = s.m) (hk : s'.k = s.k) (hf : s'.ff = s.ff) :
    Bel c s' t ↔ Bel c s t := by
  unfold Bel
  rw [y_congr hm hk, hm, hf]

/-- parity of the number of segments of the operand `o` which are below `t` just after `c` -/
noncomputable def par (A : ℕ → Seg) (n : ℕ) (o : Bool) (c : ℚ) (t : Seg) : ZMod 2 :=
  ∑ k ∈ Finset.range n, ind ((A k).ff = o ∧ Act c (A k) ∧ Bel c (A k) t)

/-- parity of the number of end points of segments of the operand `o` at `x` -/
noncomputable def deg (A : ℕ → Seg) (n : ℕ) (o : Bool) (x : ℚ) : ZMod 2 :=
  ∑ k ∈ Finset.range n, (ind ((A k).ff = o ∧ (A k).a = x) + ind ((A k).ff = o ∧ (A k).b = x))

theorem par_congr {A : ℕ → Seg} {n : ℕ} {o : Bool} {c : ℚ} {t t' : Seg} (hm : t'.m = t.m)
    (hk : t'.k = t.k) (hf : t'.ff = t.ff) : par A n o c t' = par A n o c t := by
  unfold par
  exact Finset.sum_congr rfl fun k _ => ind_congr (by rw [bel_congr hm hk hf])

theorem par_ext {A B : ℕ → Seg} {n : ℕ} (h : ∀ i < n, A i = B i) (o : Bool) (c : ℚ) (t : Seg) :
    par A n o c t = par B n o c t := by
  unfold par
  exact Finset.sum_congr rfl fun k hk => by rw [h k (Finset.mem_range.1 hk)]

theorem deg_ext {A B : ℕ → Seg} {n : ℕ} (h : ∀ i < n, A i = B i) (o : Bool) (x : ℚ) :
    deg A n o x = deg B n o x := by
  unfold deg
  exact Finset.sum_congr rfl fun k hk => by rw [h k (Finset.mem_range.1 hk)]

/-- a sum over the segments after a cut -/
theorem sum_cut {A : ℕ → Seg} {n i : ℕ} {c : ℚ} (hi : i < n) (f : Seg → ZMod 2) :
    ∑ k ∈ Finset.range (n + 1), f (cut A n i c k) =
      ∑ k ∈ Finset.range n, f (A k) + (f (A i) + f { A i with b := c } + f { A i with a := c }) := by
  have him : i ∈ Finset.range n := Finset.mem_range.2 hi
  rw [Finset.sum_range_succ, cut_n, ← Finset.add_sum_erase _ _ him, cut_i A hi,
    ← Finset.add_sum_erase _ (fun k => f (A k)) him]
  have : ∑ x ∈ (Finset.range n).erase i, f (cut A n i c x) = ∑ x ∈ (Finset.range n).erase i, f (A x) := by
    refine Finset.sum_congr rfl fun k hk => ?_
    rw [Finset.mem_erase, Finset.mem_range] at hk
    rw [cut_j A hk.2 hk.1]
  rw [this]
  have h2 : f (A i) + f (A i) = 0 := CharTwo.add_self_eq_zero _
  linear_combination (-1) * h2

theorem par_cut {A : ℕ → Seg} {n i : ℕ} {c : ℚ} (hi : i < n) (h1 : (A i).a < c) (h2 : c < (A i).b)
    (o : Bool) (d : ℚ) (t : Seg) : par (cut A n i c) (n + 1) o d t = par A n o d t := by
  unfold par
  rw [sum_cut hi (fun s => ind (s.ff = o ∧ Act d s ∧ Bel d s t))]
  have key : ind ((A i).ff = o ∧ Act d (A i) ∧ Bel d (A i) t) =
      ind ((A i).ff = o ∧ Act d { A i with b := c } ∧ Bel d { A i with b := c } t) +
      ind ((A i).ff = o ∧ Act d { A i with a := c } ∧ Bel d { A i with a := c } t) := by
    rw [← ind_or]
    · apply ind_congr
      have e1 : Bel d { A i with b := c } t ↔ Bel d (A i) t := bel_congr_left rfl rfl rfl
      have e2 : Bel d { A i with a := c } t ↔ Bel d (A i) t := bel_congr_left rfl rfl rfl
      rw [e1, e2]
      unfold Act
      dsimp only
      constructor
      · rintro ⟨a, ⟨b, b'⟩, e⟩
        rcases lt_or_ge d c with g | g
        · exact Or.inl ⟨a, ⟨b, g⟩, e⟩
        · exact Or.inr ⟨a, ⟨g, b'⟩, e⟩
      · rintro (⟨a, ⟨b, b'⟩, e⟩ | ⟨a, ⟨b, b'⟩, e⟩)
        · exact ⟨a, ⟨b, b'.trans h2⟩, e⟩
        · exact ⟨a, ⟨h1.le.trans b, b'⟩, e⟩
    · unfold Act
      rintro ⟨⟨-, ⟨-, a⟩, -⟩, -, ⟨b, -⟩, -⟩
      exact absurd a (not_lt.2 b)
  have h2 : ind ((A i).ff = o ∧ Act d (A i) ∧ Bel d (A i) t) +
    ind ((A i).ff = o ∧ Act d (A i) ∧ Bel d (A i) t) = 0 := CharTwo.add_self_eq_zero _
  linear_combination h2 - key

theorem deg_cut {A : ℕ → Seg} {n i : ℕ} {c : ℚ} (hi : i < n) (o : Bool) (x : ℚ) :
    deg (cut A n i c) (n + 1) o x = deg A n o x := by
  unfold deg
  rw [sum_cut hi (fun s => ind (s.ff = o ∧ s.a = x) + ind (s.ff = o ∧ s.b = x))]
  have h1 : ∀ z : ZMod 2, z + z = 0 := CharTwo.add_self_eq_zero
  have e1 := h1 (ind ((A i).ff = o ∧ (A i).a = x))
  have e2 := h1 (ind ((A i).ff = o ∧ (A i).b = x))
  have e3 := h1 (ind ((A i).ff = o ∧ c = x))
  dsimp only
  linear_combination e1 + e2 + e3

/-- Lines in order just after `u` which do not meet before `v` are in order at `v`. -/
theorem order_const {s t : Seg} {u v : ℚ} (huv : u < v)
    (hz : ∀ c, u < c → c < v → s.y c ≠ t.y c)
    (h : s.y u < t.y u ∨ (s.y u = t.y u ∧ s.m < t.m)) : s.y v ≤ t.y v := by
  by_contra hq
  push Not at hq
  rcases h with hd | ⟨hd, hs⟩
  · set d0 := t.y u - s.y u with hd0
    set d1 := s.y v - t.y v with hd1
    have p0 : 0 < d0 := by rw [hd0]; linarith
    have p1 : 0 < d1 := by rw [hd1]; linarith
    have hs : 0 < d0 + d1 := by linarith
    set r := d0 / (d0 + d1) with hr
    have t0 : 0 < r := div_pos p0 hs
    have t1 : r < 1 := (div_lt_one hs).2 (by linarith)
    have tm : r * (d0 + d1) = d0 := div_mul_cancel₀ _ hs.ne'
    set z := u + r * (v - u) with hzz
    have z1 : u < z := by
      have : 0 < r * (v - u) := mul_pos t0 (by linarith)
      rw [hzz]; linarith
    have z2 : z < v := by
      have : 0 < (1 - r) * (v - u) := mul_pos (by linarith) (by linarith)
      rw [hzz]; nlinarith
    refine hz z z1 z2 ?_
    have e : t.y z - s.y z = d0 - r * (d0 + d1) := by
      simp only [hd0, hd1, hzz, Seg.y]; ring
    rw [tm] at e; linarith
  · have : s.y v - t.y v = (s.y u - t.y u) + (s.m - t.m) * (v - u) := by simp only [Seg.y]; ring
    have : (s.m - t.m) * (v - u) < 0 := mul_neg_of_neg_of_pos (by linarith) (by linarith)
    linarith

/-- the same for the strict order at `u` and at `v` -/
theorem order_iff {s t : Seg} {u v : ℚ} (huv : u < v)
    (hz : ∀ c, u < c → c < v → s.y c ≠ t.y c) (hu : s.y u ≠ t.y u) (hv : s.y v ≠ t.y v) :
    s.y u < t.y u ↔ s.y v < t.y v := by
  constructor
  · intro h
    exact lt_of_le_of_ne (order_const huv hz (Or.inl h)) hv
  · intro h
    by_contra hn
    have h1 : t.y u < s.y u := lt_of_le_of_ne (not_lt.1 hn) hu.symm
    have := order_const huv (fun c a b e => hz c a b e.symm) (Or.inl h1)
    linarith

/-- the order just after `u` and the strict order at `v` -/
theorem bel_iff {s t : Seg} {u v : ℚ} (huv : u < v)
    (hz : ∀ c, u < c → c < v → s.y c ≠ t.y c) (hc : ¬ Col s t) (hv : s.y v ≠ t.y v) :
    Bel u s t ↔ s.y v < t.y v := by
  constructor
  · intro h
    refine lt_of_le_of_ne (order_const huv hz ?_) hv
    rcases h with h | ⟨h, h1 | ⟨h1, -⟩⟩
    · exact Or.inl h
    · exact Or.inr ⟨h, h1⟩
    · exact absurd (col_of_slope h1 h) hc
  · intro h
    by_contra hn
    have h1 : t.y u < s.y u ∨ (t.y u = s.y u ∧ t.m < s.m) := by
      unfold Bel at hn
      push Not at hn
      rcases hn.1.lt_or_eq with h1 | h1
      · exact Or.inl h1
      · refine Or.inr ⟨h1, ?_⟩
        refine lt_of_le_of_ne (hn.2 h1.symm).1 ?_
        intro e
        exact hc (col_of_slope e.symm h1.symm)
    have := order_const huv (fun c a b e => hz c a b e.symm) h1
    linarith

theorem bel_strict {c : ℚ} {s t : Seg} (h : s.y c ≠ t.y c) : Bel c s t ↔ s.y c < t.y c := by
  unfold Bel
  constructor
  · rintro (g | ⟨g, -⟩)
    · exact g
    · exact absurd g h
  · exact Or.inl

theorem bel_col {c d : ℚ} {s t : Seg} (h : Col s t) : Bel c s t ↔ Bel d s t := by
  unfold Bel
  rw [h.y c, h.y d]
  simp

/-- A segment which does not meet `j` between `u` and `v` is counted below `j` at `u` and at `v`, unless
one of its ends is below `j` in between. -/
theorem edge_parity {j k : Seg} {u v : ℚ} (huv : u ≤ v) (pk : k.a < k.b)
    (H : ∀ c, u < c → c < v → k.a ≤ c → c ≤ k.b → k.y c = j.y c → Col k j ∧ k.a < c ∧ c < k.b)
    (H1 : u < v → k.a < v → v < k.b → k.y v = j.y v → Col k j)
    (H2 : u < v → k.b = v → k.y v ≠ j.y v)
    (H3 : u < v → k.a = v → k.y v = j.y v → ¬ Bel v k j) :
    ind (Act u k ∧ Bel u k j) + ind (Act v k ∧ Bel v k j) =
      ind (u < k.a ∧ k.a ≤ v ∧ k.y k.a < j.y k.a) + ind (u < k.b ∧ k.b ≤ v ∧ k.y k.b < j.y k.b) := by
  have dbl : ∀ z : ZMod 2, z + z = 0 := CharTwo.add_self_eq_zero
  rcases huv.eq_or_lt with rfl | huv
  · rw [dbl, ind_neg (by rintro ⟨a, b, -⟩; linarith), ind_neg (by rintro ⟨a, b, -⟩; linarith)]
    rfl
  have nz : ∀ x y, u ≤ x → y ≤ v → k.a ≤ x → y ≤ k.b → ¬ Col k j → ∀ c, x < c → c < y → k.y c ≠ j.y c :=
    fun x y h1 h2 h3 h4 hc c c1 c2 e =>
      hc (H c (by linarith) (by linarith) (by linarith) (by linarith) e).1
  unfold Act
  rcases le_or_gt k.b u with c1 | c1
  · -- before
    rw [ind_neg (by rintro ⟨⟨a, b⟩, -⟩; linarith), ind_neg (by rintro ⟨⟨a, b⟩, -⟩; linarith),
      ind_neg (by rintro ⟨a, b, -⟩; linarith), ind_neg (by rintro ⟨a, b, -⟩; linarith)]
  rcases lt_or_ge v k.a with c2 | c2
  · -- after
    rw [ind_neg (by rintro ⟨⟨a, b⟩, -⟩; linarith), ind_neg (by rintro ⟨⟨a, b⟩, -⟩; linarith),
      ind_neg (by rintro ⟨a, b, -⟩; linarith), ind_neg (by rintro ⟨a, b, -⟩; linarith)]
  rcases le_or_gt k.a u with c3 | c3 <;> rcases le_or_gt k.b v with c4 | c4
  · -- ends in between
    have hb : k.y k.b ≠ j.y k.b := by
      intro e
      rcases c4.lt_or_eq with g | g
      · exact absurd (H k.b c1 g (by linarith) le_rfl e).2.2 (lt_irrefl _)
      · exact H2 huv g (g ▸ e)
    have hc : ¬ Col k j := fun hc => hb (hc.y _)
    have := bel_iff c1 (nz u k.b le_rfl c4 c3 le_rfl hc) hc hb
    rw [ind_neg (P := (k.a ≤ v ∧ v < k.b) ∧ _) (by rintro ⟨⟨a, b⟩, -⟩; linarith),
      ind_neg (P := u < k.a ∧ _) (by rintro ⟨a, b, -⟩; linarith), add_zero, zero_add]
    apply ind_congr
    rw [this]
    tauto
  · -- all the way
    rw [ind_neg (P := u < k.a ∧ _) (by rintro ⟨a, b, -⟩; linarith),
      ind_neg (P := u < k.b ∧ _) (by rintro ⟨a, b, -⟩; linarith), add_zero]
    have : Bel u k j ↔ Bel v k j := by
      by_cases hc : Col k j
      · exact bel_col hc
      · have hv : k.y v ≠ j.y v := fun e => hc (H1 huv (by linarith) c4 e)
        rw [bel_strict hv]
        exact bel_iff huv (nz u v le_rfl le_rfl c3 c4.le hc) hc hv
    rw [ind_congr (Q := (k.a ≤ v ∧ v < k.b) ∧ Bel v k j) (by rw [this]; constructor <;> rintro ⟨-, h⟩; exacts [⟨⟨c2, c4⟩, h⟩, ⟨⟨c3, c1⟩, h⟩])]
    exact dbl _
  · -- inside
    have ha : k.y k.a ≠ j.y k.a := by
      intro e
      exact absurd (H k.a c3 (by linarith) le_rfl pk.le e).2.1 (lt_irrefl _)
    have hb : k.y k.b ≠ j.y k.b := by
      intro e
      rcases c4.lt_or_eq with g | g
      · exact absurd (H k.b c1 g pk.le le_rfl e).2.2 (lt_irrefl _)
      · exact H2 huv g (g ▸ e)
    have hc : ¬ Col k j := fun hc => hb (hc.y _)
    have := order_iff pk (nz k.a k.b c3.le c4 le_rfl le_rfl hc) ha hb
    rw [ind_neg (by rintro ⟨⟨a, b⟩, -⟩; linarith), ind_neg (by rintro ⟨⟨a, b⟩, -⟩; linarith),
      ind_congr (Q := u < k.b ∧ k.b ≤ v ∧ k.y k.b < j.y k.b) (by rw [this]; constructor <;> rintro ⟨-, -, h⟩; exacts [⟨c1, c4, h⟩, ⟨c3, c2, h⟩]),
      dbl, dbl]
  · -- starts in between
    rw [ind_neg (P := (k.a ≤ u ∧ _) ∧ _) (by rintro ⟨⟨a, b⟩, -⟩; linarith),
      ind_neg (P := u < k.b ∧ _) (by rintro ⟨a, b, -⟩; linarith), add_zero, zero_add]
    apply ind_congr
    rcases c2.lt_or_eq with g | g
    · have ha : k.y k.a ≠ j.y k.a := by
        intro e
        exact absurd (H k.a c3 g le_rfl pk.le e).2.1 (lt_irrefl _)
      have hc : ¬ Col k j := fun hc => ha (hc.y _)
      have hv : k.y v ≠ j.y v := fun e => hc (H1 huv g c4 e)
      rw [bel_strict hv, order_iff g (nz k.a v c3.le le_rfl le_rfl c4.le hc) ha hv]
      tauto
    · by_cases e : k.y v = j.y v
      · constructor
        · rintro ⟨-, h⟩; exact absurd h (H3 huv g e)
        · rintro ⟨-, -, h⟩; rw [g] at h; linarith
      · rw [bel_strict e, g]
        constructor
        · rintro ⟨-, h⟩; exact ⟨huv, le_rfl, h⟩
        · rintro ⟨-, -, h⟩; exact ⟨⟨le_rfl, c4⟩, h⟩

/-- End points below a line come in pairs. -/
theorem sum_ends {A : ℕ → Seg} {n : ℕ} {o : Bool} (hd : ∀ x, deg A n o x = 0) (X : ℚ → Prop) :
    ∑ k ∈ Finset.range n, (ind ((A k).ff = o ∧ X (A k).a) + ind ((A k).ff = o ∧ X (A k).b)) = 0 := by
  classical
  set S : Finset ℚ := ((Finset.range n).image fun k => (A k).a) ∪ ((Finset.range n).image fun k => (A k).b)
    with hS
  have h1 : ∀ k ∈ Finset.range n, ind ((A k).ff = o ∧ X (A k).a) + ind ((A k).ff = o ∧ X (A k).b) =
      ∑ x ∈ S, ind (X x) * (ind ((A k).ff = o ∧ (A k).a = x) + ind ((A k).ff = o ∧ (A k).b = x)) := by
    intro k hk
    have ha : (A k).a ∈ S := by
      rw [hS]; exact Finset.mem_union_left _ (Finset.mem_image_of_mem (fun k => (A k).a) hk)
    have hb : (A k).b ∈ S := by
      rw [hS]; exact Finset.mem_union_right _ (Finset.mem_image_of_mem (fun k => (A k).b) hk)
    simp only [mul_add, Finset.sum_add_distrib]
    have g : ∀ z ∈ S, ∑ x ∈ S, ind (X x) * ind ((A k).ff = o ∧ z = x) = ind ((A k).ff = o ∧ X z) := by
      intro z hz
      rw [Finset.sum_eq_single z]
      · by_cases hx : X z <;> by_cases hf : (A k).ff = o
        · rw [ind_pos hx, ind_pos ⟨hf, rfl⟩, ind_pos ⟨hf, hx⟩]; rfl
        · rw [ind_neg (P := _ ∧ z = z) (by tauto), ind_neg (P := _ ∧ X z) (by tauto), mul_zero]
        · rw [ind_neg hx, ind_neg (P := _ ∧ X z) (by tauto), zero_mul]
        · rw [ind_neg hx, ind_neg (P := _ ∧ X z) (by tauto), zero_mul]
      · intro x _ hne
        rw [ind_neg (P := _ ∧ z = x) (by rintro ⟨-, rfl⟩; exact hne rfl), mul_zero]
      · intro h; exact absurd hz h
    rw [g _ ha, g _ hb]
  rw [Finset.sum_congr rfl h1, Finset.sum_comm]
  refine Finset.sum_eq_zero fun x _ => ?_
  rw [← Finset.mul_sum]
  have := hd x
  unfold deg at this
  rw [this, mul_zero]

/-- The parity below `j` is the same at `u` and at `v` if nothing meets it in between. -/
theorem par_const {Y : ℚ → ℚ} {A : ℕ → Seg} {n : ℕ} {o : Bool} {j : Seg} {u v : ℚ} (huv : u ≤ v)
    (hd : ∀ x, deg A n o x = 0) (proper : ∀ i < n, (A i).a < (A i).b)
    (endsY : ∀ i < n, (A i).y (A i).a = Y (A i).a ∧ (A i).y (A i).b = Y (A i).b)
    (H : ∀ k < n, (A k).ff = o → ∀ c, u < c → c < v → (A k).a ≤ c → c ≤ (A k).b → (A k).y c = j.y c →
      Col (A k) j ∧ (A k).a < c ∧ c < (A k).b)
    (H1 : u < v → ∀ k < n, (A k).ff = o → (A k).a < v → v < (A k).b → (A k).y v = j.y v → Col (A k) j)
    (H2 : u < v → ∀ k < n, (A k).ff = o → (A k).b = v → (A k).y v ≠ j.y v)
    (H3 : u < v → ∀ k < n, (A k).ff = o → (A k).a = v → (A k).y v = j.y v → ¬ Bel v (A k) j) :
    par A n o u j = par A n o v j := by
  have key : par A n o u j + par A n o v j = 0 := by
    have hx := sum_ends hd (fun x => u < x ∧ x ≤ v ∧ Y x < j.y x)
    unfold par
    rw [← Finset.sum_add_distrib, ← hx]
    refine Finset.sum_congr rfl fun k hk => ?_
    rw [Finset.mem_range] at hk
    by_cases hf : (A k).ff = o
    · have := edge_parity (j := j) (k := A k) huv (proper k hk) (H k hk hf)
        (fun h => H1 h k hk hf) (fun h => H2 h k hk hf) (fun h => H3 h k hk hf)
      rw [(endsY k hk).1, (endsY k hk).2] at this
      simp only [hf, true_and]
      exact this
    · simp only [hf, false_and]
  have h2 : par A n o v j + par A n o v j = 0 := CharTwo.add_self_eq_zero _
  linear_combination key - h2

end Clipping.Sweep

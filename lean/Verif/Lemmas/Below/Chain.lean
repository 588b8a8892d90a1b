import Verif.Lemmas.Below.Fresh

/-!
# The events below tell the parity of sets of selected edges
-/

namespace Clipping

namespace Sweep

variable {Y : ℚ → ℚ} {A : ℕ → Seg} {n : ℕ} {K : ℕ → Prop} {L F : List ℕ} {p : ℚ}

/-- parity of the number of segments of a set which are below `t` just after `c` -/
noncomputable def kpar (A : ℕ → Seg) (n : ℕ) (K : ℕ → Prop) (c : ℚ) (t : Seg) : ZMod 2 :=
  ∑ k ∈ Finset.range n, ind (K k ∧ Act c (A k) ∧ Bel c (A k) t)

/-- parity of the number of end points of segments of a set at `x` -/
noncomputable def kdeg (A : ℕ → Seg) (n : ℕ) (K : ℕ → Prop) (x : ℚ) : ZMod 2 :=
  ∑ k ∈ Finset.range n, (ind (K k ∧ (A k).a = x) + ind (K k ∧ (A k).b = x))

theorem ksum_ends (hd : ∀ x, kdeg A n K x = 0) (X : ℚ → Prop) :
    ∑ k ∈ Finset.range n, (ind (K k ∧ X (A k).a) + ind (K k ∧ X (A k).b)) = 0 := by
  classical
  set S : Finset ℚ := ((Finset.range n).image fun k => (A k).a) ∪ ((Finset.range n).image fun k => (A k).b)
    with hS
  have h1 : ∀ k ∈ Finset.range n, ind (K k ∧ X (A k).a) + ind (K k ∧ X (A k).b) =
      ∑ x ∈ S, ind (X x) * (ind (K k ∧ (A k).a = x) + ind (K k ∧ (A k).b = x)) := by
    intro k hk
    have ha : (A k).a ∈ S := by
      rw [hS]; exact Finset.mem_union_left _ (Finset.mem_image_of_mem (fun k => (A k).a) hk)
    have hb : (A k).b ∈ S := by
      rw [hS]; exact Finset.mem_union_right _ (Finset.mem_image_of_mem (fun k => (A k).b) hk)
    simp only [mul_add, Finset.sum_add_distrib]
    have g : ∀ z ∈ S, ∑ x ∈ S, ind (X x) * ind (K k ∧ z = x) = ind (K k ∧ X z) := by
      intro z hz
      rw [Finset.sum_eq_single z]
      · by_cases hx : X z <;> by_cases hf : K k
        · rw [ind_pos hx, ind_pos ⟨hf, rfl⟩, ind_pos ⟨hf, hx⟩]; rfl
        · rw [ind_neg (P := _ ∧ z = z) (by tauto), ind_neg (P := _ ∧ X z) (by tauto), mul_zero]
        · rw [ind_neg hx, ind_neg (P := _ ∧ X z) (by tauto), zero_mul]
        · rw [ind_neg hx, ind_neg (P := _ ∧ X z) (by tauto), zero_mul]
      · intro x _ hne
        rw [ind_neg (P := _ ∧ z = x) (by rintro ⟨-, rfl⟩; exact hne rfl), mul_zero]
      · intro h; exact absurd hz h
    rw [g _ ha, g _ hb]
  rw [Finset.sum_congr rfl h1, Finset.sum_comm]
  refine Finset.sum_eq_zero fun x _ => ?_
  rw [← Finset.mul_sum]
  have := hd x
  unfold kdeg at this
  rw [this, mul_zero]

/-- Before its own end the parity below a processed segment is the one at its start. -/
theorem Inv.kpar_piece (I : Inv Y A n L F p NoEx) (hd : ∀ x, kdeg A n K x = 0) {i : ℕ} (hi : i < n) {c : ℚ}
    (hc : Act c (A i)) (hp : c < p) : kpar A n K (A i).a (A i) = kpar A n K c (A i) := by
  have key : ∀ k < n, ∀ c', (A i).a < c' → c' ≤ c → (A k).a ≤ c' → c' ≤ (A k).b → (A k).y c' = (A i).y c' →
      Col (A k) (A i) ∧ (A k).a < c' ∧ c' < (A k).b := by
    intro k hk c' h1 h2 h3 h4 h5
    have hc2 := hc.2
    rcases I.good k hk i hi c' (by linarith) ⟨h3, h4, h1.le, by linarith, h5⟩ with ⟨-, h | h⟩ | ⟨h, -, h'⟩
    · linarith
    · linarith
    · exact ⟨h', h.1, h.2⟩
  have sum : kpar A n K (A i).a (A i) + kpar A n K c (A i) = 0 := by
    have hx := ksum_ends hd (fun x => (A i).a < x ∧ x ≤ c ∧ Y x < (A i).y x)
    unfold kpar
    rw [← Finset.sum_add_distrib, ← hx]
    refine Finset.sum_congr rfl fun k hk => ?_
    rw [Finset.mem_range] at hk
    by_cases hf : K k
    · have := edge_parity (j := A i) (k := A k) hc.1 (I.proper k hk)
        (fun c' h1 h2 h3 h4 h5 => key k hk c' h1 h2.le h3 h4 h5)
        (fun hlt h1 h2 h3 => (key k hk c hlt le_rfl h1.le h2.le h3).1)
        (fun hlt h1 h2 => absurd h1 (key k hk c hlt le_rfl (by rw [← h1]; exact (I.proper k hk).le) h1.ge h2).2.2.ne')
        (fun hlt h1 h2 => absurd h1 (key k hk c hlt le_rfl h1.le (by rw [← h1]; exact (I.proper k hk).le) h2).2.1.ne)
      rw [(I.endsY k hk).1, (I.endsY k hk).2] at this
      simp only [hf, true_and]
      exact this
    · simp only [hf, false_and]
  have h2 : kpar A n K c (A i) + kpar A n K c (A i) = 0 := CharTwo.add_self_eq_zero _
  linear_combination sum - h2

/-- The next one below is the only difference. -/
theorem Under.kpar {i b : ℕ} (U : Under A n i b) (hb : b < n) :
    kpar A n K (A i).a (A i) = kpar A n K (A i).a (A b) + ind (K b) := by
  classical
  unfold Sweep.kpar
  have h1 : ∀ k ∈ Finset.range n, ind (K k ∧ Act (A i).a (A k) ∧ Bel (A i).a (A k) (A i)) =
      ind (K k ∧ Act (A i).a (A k) ∧ Bel (A i).a (A k) (A b)) + ind (k = b ∧ K b) := by
    intro k hk
    rw [Finset.mem_range] at hk
    rw [← ind_or]
    · apply ind_congr
      constructor
      · rintro ⟨a1, a2, a3⟩
        rcases U.next k hk a2 a3 with rfl | h
        · exact Or.inr ⟨rfl, a1⟩
        · exact Or.inl ⟨a1, a2, h⟩
      · rintro (⟨a1, a2, a3⟩ | ⟨rfl, a1⟩)
        · exact ⟨a1, a2, a3.trans U.bel⟩
        · exact ⟨a1, U.act, U.bel⟩
    · rintro ⟨⟨-, -, h⟩, rfl, -⟩
      exact h.irrefl
  rw [Finset.sum_congr rfl h1, Finset.sum_add_distrib]
  congr 1
  rw [Finset.sum_eq_single b]
  · exact ind_congr ⟨fun h => h.2, fun h => ⟨rfl, h⟩⟩
  · intro k _ hne
    exact ind_neg fun h => hne h.1
  · intro h
    exact absurd (Finset.mem_range.2 hb) h

/-- Overlapping segments with the same start are both vertical. -/
theorem St.vertical_hot {ε : ℚ} {Pt : List Point} {s : Store ShapedData} {Ex : ℕ → ℕ → Prop} (S : St ε Pt Y s L F p Ex)
    {u v : ℕ} (hu : u < s.heap.count) (hv : v < s.heap.count) (hh : Hot ε s.heap u v) (h : s.heap.isVertical u = true) :
    s.heap.isVertical v = true := by
  have I := S.inv'
  have pu := S.pts.mem u hu
  have pv := S.pts.mem v hv
  have hs : s.heap.start u = s.heap.start v := (S.pts.ord.eq_iff pu.1 pv.1).2 hh.2
  have hx : (s.heap.start u).x = (s.heap.stop u).x := by simpa [Heap.isVertical] using h
  have hz : cross (s.heap.start u) (s.heap.stop u) (s.heap.stop v) = 0 := by
    rw [cross_zero_iff (I.proper u hu) (ff := s.heap.first u)]
    exact (hh.1.y _).trans (abs_yb (I.proper v hv))
  have hlt : s.heap.start u < s.heap.stop u := (S.pts.ord.lt_iff pu.1 pu.2).2 (I.proper u hu)
  rw [Point.lt_def] at hlt
  have hy : (s.heap.start u).y < (s.heap.stop u).y := by
    rcases hlt with h | h
    · linarith
    · exact h.2
  unfold cross at hz
  rw [← hx, sub_self, zero_mul, zero_sub, neg_eq_zero] at hz
  rcases mul_eq_zero.1 hz with h0 | h0
  · linarith
  · simp only [Heap.isVertical, decide_eq_true_eq]
    rw [← hs]; linarith

end Sweep

open Sweep

theorem Ord.irrefl {s : Seg} : ¬ Ord s s := by
  rintro (h | ⟨-, h | ⟨-, h1, h2⟩⟩)
  · exact lt_irrefl _ h
  · exact lt_irrefl _ h
  · rw [h1] at h2; cases h2


end Clipping

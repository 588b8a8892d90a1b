import Verif.Lemmas.Flags.Parity

/-!
# The parity below a new segment is known from its neighbour in the sweep line
-/

namespace Clipping.Sweep

variable {Y : ℚ → ℚ} {A : ℕ → Seg} {n : ℕ} {L F : List ℕ} {p : ℚ} {o : Bool} {x : Seg}

/-- The sweep line is ordered just after `p`. -/
theorem Inv.belPair (I : Inv Y A n L F p NoEx) (hne : ∀ i ∈ L, (A i).b ≠ p) :
    L.Pairwise fun u v => Bel p (A u) (A v) := by
  refine (I.ord.and I.mono_p).imp_of_mem ?_
  rintro u v hu hv ⟨hlt, hle⟩
  rcases hle.lt_or_eq with h | h
  · exact Or.inl h
  · refine Or.inr ⟨h, ?_⟩
    by_cases hc : Col (A u) (A v)
    · rcases hlt with ⟨-, h1, h2⟩ | ⟨hn, -⟩
      · exact Or.inr ⟨hc.1, h1, h2⟩
      · exact absurd hc hn
    · have hy := I.crossY u (I.ltn hu) v (I.ltn hv) hc p (I.com_p hu hv h)
      rcases I.lt_through hne hu hv hy (h ▸ hy) hlt with ⟨g, -⟩ | g
      · exact absurd g hc
      · exact Or.inl g

/-- What is active at `p` is in the sweep line or about to be put into it. -/
theorem Inv.active (I : Inv Y A n L F p NoEx) {k : ℕ} (hk : k < n) (ha : Act p (A k)) :
    k ∈ L ∨ (k ∉ L ∧ k ∉ F ∧ (A k).a = p) := by
  by_cases hL : k ∈ L
  · exact Or.inl hL
  · have hF : k ∉ F := fun h => absurd (I.fin k h) (not_le.2 ha.2)
    exact Or.inr ⟨hL, hF, le_antisymm ha.1 (I.wait k hk hL hF)⟩

theorem Inv.lt_b (I : Inv Y A n L F p NoEx) (hne : ∀ i ∈ L, (A i).b ≠ p) {i : ℕ} (hi : i ∈ L) :
    p < (A i).b := lt_of_le_of_ne (I.act i hi).2 (hne i hi).symm

/-- The parity below `x` from the sweep line. -/
theorem Inv.par_line (I : Inv Y A n L F p NoEx) (hne : ∀ i ∈ L, (A i).b ≠ p) {l₁ l₂ : List ℕ}
    (hL : L = l₁ ++ l₂) (h1 : ∀ i ∈ l₁, Bel p (A i) x) (h2 : ∀ i ∈ l₂, ¬ Bel p (A i) x)
    (hw : ∀ k < n, k ∉ L → k ∉ F → (A k).a = p → ¬ Bel p (A k) x) :
    par A n o p x = (l₁.map fun i => ind ((A i).ff = o)).sum := by
  classical
  have nd : l₁.Nodup := by
    have := I.nodupL
    rw [hL] at this
    exact (List.nodup_append.1 this).1
  have sub : ∀ i ∈ l₁, i ∈ L := fun i hi => by rw [hL]; simp [hi]
  rw [← List.sum_toFinset _ nd]
  unfold par
  have hs : l₁.toFinset ⊆ Finset.range n := by
    intro i hi
    rw [List.mem_toFinset] at hi
    exact Finset.mem_range.2 (I.ltn (sub i hi))
  rw [← Finset.sum_subset hs]
  · refine Finset.sum_congr rfl fun i hi => ind_congr ?_
    rw [List.mem_toFinset] at hi
    have ha : Act p (A i) := ⟨(I.act i (sub i hi)).1, I.lt_b hne (sub i hi)⟩
    have := h1 i hi
    tauto
  · intro k hk hkl
    rw [Finset.mem_range] at hk
    rw [List.mem_toFinset] at hkl
    apply ind_neg
    rintro ⟨-, ha, hb⟩
    rcases I.active hk ha with h | ⟨a, b, c⟩
    · rw [hL] at h
      rcases List.mem_append.1 h with h | h
      · exact hkl h
      · exact h2 k h hb
    · exact hw k hk a b c hb

/-- The parity below `x` and below its predecessor. -/
theorem Inv.par_pred (I : Inv Y A n L F p NoEx) (hne : ∀ i ∈ L, (A i).b ≠ p) {l₁ l₂ : List ℕ}
    (hL : L = l₁ ++ l₂) (h1 : ∀ i ∈ l₁, Bel p (A i) x) (h2 : ∀ i ∈ l₂, ¬ Bel p (A i) x)
    (hw : ∀ k < n, k ∉ L → k ∉ F → (A k).a = p → ¬ Bel p (A k) x) :
    (l₁.getLast? = none → par A n o p x = 0) ∧
    ∀ j, l₁.getLast? = some j → par A n o p x = par A n o p (A j) + ind ((A j).ff = o) := by
  rw [I.par_line hne hL h1 h2 hw]
  constructor
  · intro h
    rw [List.getLast?_eq_none_iff] at h
    subst h
    rfl
  · intro j hj
    obtain ⟨l', rfl⟩ := List.getLast?_eq_some_iff.1 hj
    have hL' : L = l' ++ (j :: l₂) := by rw [hL]; simp
    have hp := I.belPair hne
    rw [hL'] at hp
    have hp' := List.pairwise_append.1 hp
    rw [I.par_line (x := A j) (o := o) hne hL']
    · simp
    · intro i hi
      exact hp'.2.2 i hi j (by simp)
    · intro i hi
      rcases List.mem_cons.1 hi with rfl | hi
      · exact Bel.irrefl
      · exact ((List.pairwise_cons.1 hp'.2.1).1 i hi).asymm
    · intro k hk a b c hb
      exact hw k hk a b c (hb.trans (h1 j (by simp)))

/-- The parity below the predecessor of the same operand has not changed since it has been started. -/
theorem Inv.par_old (I : Inv Y A n L F p NoEx) (hne : ∀ i ∈ L, (A i).b ≠ p)
    (hd : ∀ x, deg A n o x = 0) (hx : x.y p = Y p) {j : ℕ} (hj : j ∈ L) (hjx : Bel p (A j) x)
    (hff : (A j).ff = x.ff)
    (hw : ∀ k < n, k ∉ L → k ∉ F → (A k).a = p → ¬ Bel p (A k) x) :
    par A n o (A j).a (A j) = par A n o p (A j) := by
  have aj := I.act j hj
  have bj := I.lt_b hne hj
  -- if it passes through the point, then nothing starts or ends there
  have hq : (A j).a < p → (A j).y p = Y p → ∀ q < n, (A q).a = p → Col (A q) (A j) → False := by
    intro h1 h2 q hq hqa hc
    by_cases hqL : q ∈ L
    · exact absurd (I.starts hne hj hqL h2 hqa) h1.ne
    · have hqF : q ∉ F := fun h => by
        have := I.fin q h
        have := I.proper q hq
        linarith
      refine hw q hq hqL hqF hqa ?_
      rcases hjx with h | ⟨h, h' | ⟨h', h3, h4⟩⟩
      · rw [h2, hx] at h; exact absurd h (lt_irrefl _)
      · exact Or.inr ⟨(hc.y p).trans h, Or.inl (by rw [hc.1]; exact h')⟩
      · rw [h3, h4] at hff; cases hff
  refine par_const aj.1 hd I.proper I.endsY ?_ ?_ ?_ ?_
  · intro k hk _ c h1 h2 h3 h4 h5
    have com : Com (A k) (A j) c := ⟨h3, h4, h1.le, by linarith, h5⟩
    rcases I.good k hk j (I.ltn hj) c h2 com with ⟨-, h | h⟩ | ⟨h, -, h'⟩
    · linarith
    · linarith
    · exact ⟨h', h.1, h.2⟩
  · intro hlt k hk _ h1 h2 h3
    by_contra hc
    have hkL : k ∈ L := by
      rcases I.active hk ⟨h1.le, h2⟩ with h | ⟨-, -, h⟩
      · exact h
      · exact absurd h h1.ne
    have hy := I.crossY k hk j (I.ltn hj) hc p ⟨h1.le, h2.le, aj.1, bj.le, h3⟩
    exact hc (I.passing hne hkL hj hy (h3 ▸ hy) h1)
  · intro hlt k hk _ h1 h2
    have hkF : k ∈ F := by
      by_contra hF
      by_cases hkL : k ∈ L
      · exact hne k hkL h1
      · have := I.wait k hk hkL hF
        have := I.proper k hk
        linarith
    have hy : (A j).y p = Y p := by
      rw [← h2, ← h1]; exact (I.endsY k hk).2
    obtain ⟨q, hq1, hq2, hq3⟩ := I.en j hj hlt hy bj k hkF h1
    exact hq hlt hy q hq1 hq2 hq3
  · intro hlt k hk _ h1 h2 hb
    have hy : (A j).y p = Y p := by
      rw [← h2, ← h1]; exact (I.endsY k hk).1
    by_cases hkL : k ∈ L
    · exact absurd (I.starts hne hj hkL hy h1) hlt.ne
    · have hkF : k ∉ F := fun h => by
        have := I.fin k h
        have := I.proper k hk
        linarith
      exact hw k hk hkL hkF h1 (hb.trans hjx)

/-- There is a waiting segment of the first operand which will be put right below. -/
def Pend (A : ℕ → Seg) (n : ℕ) (L F : List ℕ) (i : ℕ) : Prop :=
  ∃ k < n, k ∉ L ∧ k ∉ F ∧ (A k).ff = true ∧ (A i).ff = false ∧ Col (A k) (A i) ∧ (A k).a = (A i).a

/-- How the parity below `x` is computed from its predecessor. -/
theorem Inv.formula (I : Inv Y A n L F p NoEx) (hne : ∀ i ∈ L, (A i).b ≠ p) {l₁ l₂ : List ℕ}
    (hL : L = l₁ ++ l₂) (h1 : ∀ i ∈ l₁, Bel p (A i) x) (h2 : ∀ i ∈ l₂, ¬ Bel p (A i) x)
    (hw : ∀ k < n, k ∉ L → k ∉ F → (A k).a = p → ¬ Bel p (A k) x)
    (hx : x.y p = Y p) (hfx : x.ff = !o) (hd : ∀ x, deg A n o x = 0) {itl oth : ℕ → ZMod 2}
    (own : ∀ k < n, (A k).ff = o → ∀ c, Act c (A k) → itl k = par A n o c (A k) + 1)
    (side : ∀ i ∈ L, (A i).ff = !o → oth i = par A n o (A i).a (A i) ∨ Pend A n L F i) :
    (l₁.getLast? = none → par A n o p x = 0) ∧
    ∀ j, l₁.getLast? = some j → par A n o p x = if (A j).ff = x.ff then oth j else itl j := by
  obtain ⟨e1, e2⟩ := I.par_pred (o := o) hne hL h1 h2 hw
  refine ⟨e1, fun j hj => ?_⟩
  have hj1 : j ∈ l₁ := List.mem_of_getLast? hj
  have hjL : j ∈ L := by rw [hL]; simp [hj1]
  rw [e2 j hj]
  split_ifs with hf
  · have hfo : (A j).ff = !o := hf.trans hfx
    rcases side j hjL hfo with h | ⟨k, hk, k1, k2, k3, k4, k5, k6⟩
    · rw [h, I.par_old hne hd hx hjL (h1 j hj1) hf hw, ind_neg (by rw [hfo]; simp), add_zero]
    · have ka : (A k).a = p := le_antisymm (by rw [k6]; exact (I.act j hjL).1) (I.wait k hk k1 k2)
      exact absurd (Bel.trans (Or.inr ⟨k5.y p, Or.inr ⟨k5.1, k3, k4⟩⟩) (h1 j hj1)) (hw k hk k1 k2 ka)
  · have hfo : (A j).ff = o := by
      rw [hfx] at hf
      cases h : (A j).ff <;> cases h' : o <;> simp_all
    rw [own j (I.ltn hjL) hfo p ⟨(I.act j hjL).1, I.lt_b hne hjL⟩, ind_pos hfo]

/-- The parities below two collinear segments of different operands. -/
theorem par_pair {u v : ℕ} (hu : u < n) (hc : Col (A u) (A v)) (fu : (A u).ff = true)
    (fv : (A v).ff = false) {c : ℚ} (ha : Act c (A u))
    (noOv : ∀ i < n, i ≠ u → Col (A i) (A u) → (A i).ff = true → ¬ Act c (A i)) :
    par A n o c (A v) = par A n o c (A u) + ind (o = true) := by
  classical
  unfold par
  rw [← Finset.add_sum_erase _ _ (Finset.mem_range.2 hu),
    ← Finset.add_sum_erase _ (fun k => ind ((A k).ff = o ∧ Act c (A k) ∧ Bel c (A k) (A u)))
      (Finset.mem_range.2 hu)]
  have e1 : ind ((A u).ff = o ∧ Act c (A u) ∧ Bel c (A u) (A v)) = ind (o = true) := by
    apply ind_congr
    have : Bel c (A u) (A v) := Or.inr ⟨hc.y c, Or.inr ⟨hc.1, fu, fv⟩⟩
    rw [fu, eq_comm]
    tauto
  have e2 : ind ((A u).ff = o ∧ Act c (A u) ∧ Bel c (A u) (A u)) = 0 :=
    ind_neg fun h => h.2.2.irrefl
  have e3 : ∀ k ∈ (Finset.range n).erase u, ind ((A k).ff = o ∧ Act c (A k) ∧ Bel c (A k) (A v)) =
      ind ((A k).ff = o ∧ Act c (A k) ∧ Bel c (A k) (A u)) := by
    intro k hk
    rw [Finset.mem_erase, Finset.mem_range] at hk
    apply ind_congr
    have : Act c (A k) → (Bel c (A k) (A v) ↔ Bel c (A k) (A u)) := by
      intro hak
      unfold Bel
      rw [← hc.y c, ← hc.1]
      constructor
      · rintro (h | ⟨h, h' | ⟨h1, h2, h3⟩⟩)
        · exact Or.inl h
        · exact Or.inr ⟨h, Or.inl h'⟩
        · exact absurd hak (noOv k hk.2 hk.1 (col_of_slope h1 h) h2)
      · rintro (h | ⟨h, h' | ⟨h1, h2, h3⟩⟩)
        · exact Or.inl h
        · exact Or.inr ⟨h, Or.inl h'⟩
        · rw [fu] at h3; cases h3
    tauto
  rw [Finset.sum_congr rfl e3, e1, e2]
  ring

/-- Only the segments below `n` matter. -/
theorem Inv.ext {Y : ℚ → ℚ} {A B : ℕ → Seg} {n : ℕ} {L F : List ℕ} {p : ℚ} {Ex : ℕ → ℕ → Prop}
    (I : Inv Y A n L F p Ex) (h : ∀ i < n, A i = B i) : Inv Y B n L F p Ex := by
  have hL : ∀ i ∈ L, A i = B i := fun i hi => h i (I.bound i (by simp [hi]))
  have hF : ∀ i ∈ F, A i = B i := fun i hi => h i (I.bound i (by simp [hi]))
  have hLF : ∀ i ∈ L ++ F, A i = B i := fun i hi => h i (I.bound i hi)
  constructor
  · exact I.nodup
  · exact I.bound
  · intro i hi; rw [← h i hi]; exact I.proper i hi
  · intro i hi; rw [← h i hi]; exact I.wait i hi
  · intro i hi; rw [← hL i hi]; exact I.act i hi
  · intro i hi; rw [← hF i hi]; exact I.fin i hi
  · intro i hi; rw [← h i hi]; exact I.endsY i hi
  · intro i hi j hj; rw [← h i hi, ← h j hj]; exact I.crossY i hi j hj
  · intro i hi j hj; rw [← h i hi, ← h j hj]; exact I.noOv i hi j hj
  · intro i hi j hj; rw [← h i hi, ← h j hj]; exact I.good i hi j hj
  · intro u v huv; rw [← hL u huv.mem_left, ← hL v huv.mem_right]; exact I.adj u v huv
  · refine I.ord.imp_of_mem ?_
    intro u v hu hv; rw [← hL u hu, ← hL v hv]; exact id
  · intro j hj hja i hi hia hiy i' hi'
    rw [← hL j hj] at hja
    rw [← hL i hi] at hia hiy ⊢
    rw [← hL i' hi']
    exact I.ph j hj hja i hi hia hiy i' hi'
  · intro i hi h1 h2 h3 j hj h4
    rw [← hL i hi] at h1 h2 h3
    rw [← hF j hj] at h4
    obtain ⟨k, hk, a, b⟩ := I.en i hi h1 h2 h3 j hj h4
    exact ⟨k, hk, by rw [← h k hk]; exact a, by rw [← h k hk, ← hL i hi]; exact b⟩
  · intro i hi j hj
    rw [← hLF i hi, ← hLF j hj]
    intro h1 h2 h3 h4 h5
    obtain ⟨k, hk, a, b⟩ := I.ov i hi j hj h1 h2 h3 h4 h5
    exact ⟨k, hk, by rw [← h k hk]; exact a, by rw [← h k hk]; exact b⟩
  · intro k hk; rw [← hF k hk]
    intro hb i hi; rw [← hL i hi]; exact I.out k hk hb i hi
  · refine I.fsorted.imp_of_mem ?_
    intro u v hu hv; rw [← hF u hu, ← hF v hv]; exact id

end Clipping.Sweep

import Verif.Lemmas.Sweep.Basic

/-!
# The sweep invariant

`A i` for `i < n` are the current segments, `L` the sweep line from bottom to top, `F` the finished
segments in order of completion, `p` the current abscissa.  `Ex` holds for the neighbours which have
not been checked for intersections yet.
-/

namespace Clipping.Sweep

/-- every common point is an end point of both, or the segments overlap and start together -/
def Checked (s t : Seg) : Prop :=
  ∀ c, Com s t c → (IsEnd s c ∧ IsEnd t c) ∨ (Col s t ∧ s.a = t.a)

/-- The invariant of the sweep. -/
structure Inv (Y : ℚ → ℚ) (A : ℕ → Seg) (n : ℕ) (L F : List ℕ) (p : ℚ) (Ex : ℕ → ℕ → Prop) :
    Prop where
  nodup : (L ++ F).Nodup
  bound : ∀ i ∈ L ++ F, i < n
  proper : ∀ i < n, (A i).a < (A i).b
  wait : ∀ i < n, i ∉ L → i ∉ F → p ≤ (A i).a
  act : ∀ i ∈ L, (A i).a ≤ p ∧ p ≤ (A i).b
  fin : ∀ i ∈ F, (A i).b ≤ p
  /-- end points with the same abscissa coincide -/
  endsY : ∀ i < n, (A i).y (A i).a = Y (A i).a ∧ (A i).y (A i).b = Y (A i).b
  /-- crossing points and end points with the same abscissa coincide -/
  crossY : ∀ i < n, ∀ j < n, ¬ Col (A i) (A j) → ∀ c, Com (A i) (A j) c → (A i).y c = Y c
  /-- segments of one operand do not overlap -/
  noOv : ∀ i < n, ∀ j < n, i ≠ j → Col (A i) (A j) → (A i).ff = (A j).ff →
    (A i).b ≤ (A j).a ∨ (A j).b ≤ (A i).a
  /-- everything is resolved before `p` -/
  good : ∀ i < n, ∀ j < n, ∀ c < p, Com (A i) (A j) c →
    (IsEnd (A i) c ∧ IsEnd (A j) c) ∨ (Inn (A i) c ∧ Inn (A j) c ∧ Col (A i) (A j))
  adj : ∀ u v, Adj L u v → ¬ Ex u v → Checked (A u) (A v)
  ord : L.Pairwise fun u v => Lt (A u) (A v)
  /-- segments passing through a point where another one starts are collinear -/
  ph : ∀ j ∈ L, (A j).a = p → ∀ i ∈ L, (A i).a < p → (A i).y p = Y p →
    ∀ i' ∈ L, (A i').a < p → (A i').y p = Y p → Col (A i) (A i')
  /-- if something has finished inside of a segment, then something starts there on the same line -/
  en : ∀ i ∈ L, (A i).a < p → (A i).y p = Y p → p < (A i).b → ∀ j ∈ F, (A j).b = p →
    ∃ k < n, (A k).a = p ∧ Col (A k) (A i)
  /-- of two overlapping segments the longer one has a successor of the shorter one -/
  ov : ∀ i ∈ L ++ F, ∀ j ∈ L ++ F, ¬ Ex i j → ¬ Ex j i → Col (A i) (A j) →
    max (A i).a (A j).a < min (A i).b (A j).b → (A i).b < (A j).b →
    ∃ k < n, (A k).a = (A i).b ∧ Col (A k) (A i)
  /-- finished at `p` before the ones which are still to be finished -/
  out : ∀ k ∈ F, (A k).b = p → ∀ i ∈ L, (A i).a < p → (A i).y p = Y p → (A i).m ≤ (A k).m
  fsorted : F.Pairwise fun i j => (A i).b < (A j).b ∨ ((A i).b = (A j).b ∧ (A j).m ≤ (A i).m)

variable {Y : ℚ → ℚ} {A : ℕ → Seg} {n : ℕ} {L F : List ℕ} {p : ℚ} {Ex : ℕ → ℕ → Prop}

/-- Cut `A i` at `c`; the tail gets the number `n`. -/
def cut (A : ℕ → Seg) (n i : ℕ) (c : ℚ) : ℕ → Seg :=
  Function.update (Function.update A i { A i with b := c }) n { A i with a := c }

theorem cut_n (A : ℕ → Seg) (n i : ℕ) (c : ℚ) : cut A n i c n = { A i with a := c } := by
  simp [cut]

theorem cut_i (A : ℕ → Seg) {n i : ℕ} (h : i < n) (c : ℚ) : cut A n i c i = { A i with b := c } := by
  simp [cut, h.ne]

theorem cut_j (A : ℕ → Seg) {n i j : ℕ} (h : j < n) (hne : j ≠ i) (c : ℚ) : cut A n i c j = A j := by
  simp [cut, h.ne, hne]

/-- what a cut changes in an old segment -/
theorem cut_old (A : ℕ → Seg) {n i j : ℕ} {c : ℚ} (h : j < n) (hi : i < n) (hb : c < (A i).b) :
    (cut A n i c j).a = (A j).a ∧ (cut A n i c j).m = (A j).m ∧ (cut A n i c j).k = (A j).k ∧
    (cut A n i c j).ff = (A j).ff ∧ (cut A n i c j).b ≤ (A j).b ∧
    ((j = i ∧ (cut A n i c j).b = c) ∨ (j ≠ i ∧ (cut A n i c j).b = (A j).b)) := by
  by_cases hj : j = i
  · subst hj
    rw [cut_i A h]
    exact ⟨rfl, rfl, rfl, rfl, hb.le, Or.inl ⟨rfl, rfl⟩⟩
  · rw [cut_j A h hj]
    exact ⟨rfl, rfl, rfl, rfl, le_refl _, Or.inr ⟨hj, rfl⟩⟩

/-- Every new segment is a part of an old one. -/
theorem cut_par (A : ℕ → Seg) {n i : ℕ} {c : ℚ} (hi : i < n) (ha : (A i).a < c) (hb : c < (A i).b)
    {j : ℕ} (hj : j < n + 1) :
    ∃ j' < n, (A j').a ≤ (cut A n i c j).a ∧ (cut A n i c j).b ≤ (A j').b ∧
      (cut A n i c j).m = (A j').m ∧ (cut A n i c j).k = (A j').k ∧
      (cut A n i c j).ff = (A j').ff ∧ ((j = n ∧ j' = i) ∨ (j < n ∧ j' = j)) := by
  rcases Nat.lt_succ_iff_lt_or_eq.1 hj with h | h
  · obtain ⟨h1, h2, h3, h4, h5, -⟩ := cut_old A h hi hb
    exact ⟨j, h, h1.ge, h5, h2, h3, h4, Or.inr ⟨h, rfl⟩⟩
  · subst h
    rw [cut_n]
    exact ⟨i, hi, ha.le, le_refl _, rfl, rfl, rfl, Or.inl ⟨rfl, rfl⟩⟩

theorem y_congr {s t : Seg} (hm : s.m = t.m) (hk : s.k = t.k) (c : ℚ) : s.y c = t.y c := by
  simp only [Seg.y, hm, hk]

theorem com_sub {s t s' t' : Seg} {c : ℚ} (h : Com s' t' c) (h1 : s.a ≤ s'.a) (h2 : s'.b ≤ s.b)
    (h3 : t.a ≤ t'.a) (h4 : t'.b ≤ t.b) (m1 : s'.m = s.m) (k1 : s'.k = s.k) (m2 : t'.m = t.m)
    (k2 : t'.k = t.k) : Com s t c :=
  ⟨h1.trans h.1, h.2.1.trans h2, h3.trans h.2.2.1, h.2.2.2.1.trans h4,
    by rw [← y_congr m1 k1, ← y_congr m2 k2]; exact h.2.2.2.2⟩

/-- A cut at or after the current abscissa keeps the invariant. -/
theorem Inv.cut (I : Inv Y A n L F p Ex) {i : ℕ} {c : ℚ} (hi : i ∈ L) (ha : (A i).a < c)
    (hb : c < (A i).b) (hp : p ≤ c) (hy : (A i).y c = Y c) :
    Inv Y (cut A n i c) (n + 1) L F p Ex := by
  have hin : i < n := I.bound i (by simp [hi])
  have old : ∀ j < n, _ := fun j hj => cut_old A (c := c) hj hin hb
  have oldL : ∀ j ∈ L, j < n := fun j hj => I.bound j (by simp [hj])
  have oldF : ∀ j ∈ F, j < n := fun j hj => I.bound j (by simp [hj])
  have hiF : ∀ j ∈ F, j ≠ i := by
    rintro j hj rfl
    exact (List.disjoint_of_nodup_append I.nodup) hi hj
  have fb : ∀ j ∈ F, (Sweep.cut A n i c j).b = (A j).b := by
    intro j hj
    rcases (old j (oldF j hj)).2.2.2.2.2 with h | h
    · exact absurd h.1 (hiF j hj)
    · exact h.2
  have oy : ∀ j < n, ∀ d, (Sweep.cut A n i c j).y d = (A j).y d := fun j hj d =>
    y_congr (old j hj).2.1 (old j hj).2.2.1 d
  have ocol : ∀ u < n, ∀ v < n, Col (Sweep.cut A n i c u) (Sweep.cut A n i c v) ↔ Col (A u) (A v) := by
    intro u hu v hv
    simp only [Col, (old u hu).2.1, (old u hu).2.2.1, (old v hv).2.1, (old v hv).2.2.1]
  have ocom : ∀ u < n, ∀ v < n, ∀ d, Com (Sweep.cut A n i c u) (Sweep.cut A n i c v) d →
      Com (A u) (A v) d := fun u hu v hv d h =>
    com_sub h (old u hu).1.ge (old u hu).2.2.2.2.1 (old v hv).1.ge (old v hv).2.2.2.2.1 (old u hu).2.1
      (old u hu).2.2.1 (old v hv).2.1 (old v hv).2.2.1
  -- an end point of an old segment within the new one is an end point
  have oend : ∀ u < n, ∀ d, d ≤ (Sweep.cut A n i c u).b → IsEnd (A u) d →
      IsEnd (Sweep.cut A n i c u) d := by
    intro u hu d hd h
    rcases h with h | h
    · exact Or.inl (h.trans (old u hu).1.symm)
    · right
      exact le_antisymm hd (h ▸ (old u hu).2.2.2.2.1)
  have hbc : ∀ u ∈ L, p ≤ (Sweep.cut A n i c u).b := by
    intro u hu
    rcases (old u (oldL u hu)).2.2.2.2.2 with h | h
    · rw [h.2]; exact hp
    · rw [h.2]; exact (I.act u hu).2
  have newa : (Sweep.cut A n i c n).a = c := by rw [cut_n]
  have ofk : ∀ {q}, ∀ u < n, (∃ k < n, (A k).a = q ∧ Col (A k) (A u)) →
      ∃ k < n + 1, (Sweep.cut A n i c k).a = q ∧ Col (Sweep.cut A n i c k) (Sweep.cut A n i c u) := by
    rintro q u hu ⟨k, hk, rfl, hcol⟩
    exact ⟨k, by omega, (old k hk).1, (ocol k hk u hu).2 hcol⟩
  constructor
  · exact I.nodup
  · intro j hj; have := I.bound j hj; omega
  · intro j hj
    rcases Nat.lt_succ_iff_lt_or_eq.1 hj with h | h
    · rw [(old j h).1]
      rcases (old j h).2.2.2.2.2 with g | g
      · rw [g.2, g.1]; exact ha
      · rw [g.2]; exact I.proper j h
    · subst h; rw [cut_n]; exact hb
  · intro j hj hL hF
    rcases Nat.lt_succ_iff_lt_or_eq.1 hj with h | h
    · rw [(old j h).1]; exact I.wait j h hL hF
    · subst h; rw [newa]; exact hp
  · intro j hj
    rw [(old j (oldL j hj)).1]
    exact ⟨(I.act j hj).1, hbc j hj⟩
  · intro j hj; rw [fb j hj]; exact I.fin j hj
  · intro j hj
    rcases Nat.lt_succ_iff_lt_or_eq.1 hj with h | h
    · rw [oy j h, oy j h, (old j h).1]
      refine ⟨(I.endsY j h).1, ?_⟩
      rcases (old j h).2.2.2.2.2 with g | g
      · rw [g.2, g.1]; exact hy
      · rw [g.2]; exact (I.endsY j h).2
    · subst h; rw [cut_n]
      exact ⟨hy, (I.endsY i hin).2⟩
  · intro u hu v hv hne d hd
    obtain ⟨u', hu', u1, u2, u3, u4, u5, u6⟩ := cut_par A hin ha hb hu
    obtain ⟨v', hv', v1, v2, v3, v4, v5, v6⟩ := cut_par A hin ha hb hv
    rw [y_congr u3 u4]
    refine I.crossY u' hu' v' hv' ?_ d (com_sub hd u1 u2 v1 v2 u3 u4 v3 v4)
    intro h
    exact hne ⟨u3.trans (h.1.trans v3.symm), u4.trans (h.2.trans v4.symm)⟩
  · intro u hu v hv hne hcol hff
    obtain ⟨u', hu', u1, u2, u3, u4, u5, u6⟩ := cut_par A hin ha hb hu
    obtain ⟨v', hv', v1, v2, v3, v4, v5, v6⟩ := cut_par A hin ha hb hv
    by_cases h : u' = v'
    · rcases u6 with ⟨rfl, rfl⟩ | ⟨hlt, rfl⟩
      · rcases v6 with ⟨rfl, -⟩ | ⟨hv6, rfl⟩
        · exact absurd rfl hne
        · right; rw [newa]
          rcases (old v' hv6).2.2.2.2.2 with g | g
          · exact g.2.le
          · exact absurd h.symm g.1
      · rcases v6 with ⟨rfl, hv6⟩ | ⟨-, rfl⟩
        · left; rw [newa]
          rcases (old u' hlt).2.2.2.2.2 with g | g
          · exact g.2.le
          · exact absurd (h.trans hv6) g.1
        · exact absurd h hne
    · rcases I.noOv u' hu' v' hv' h ⟨u3.symm.trans (hcol.1.trans v3), u4.symm.trans (hcol.2.trans v4)⟩
        (u5.symm.trans (hff.trans v5)) with g | g
      · left; linarith
      · right; linarith
  · intro u hu v hv d hd hcom
    have hun : u < n := by
      rcases Nat.lt_succ_iff_lt_or_eq.1 hu with h | h
      · exact h
      · subst h; have := hcom.1; rw [newa] at this; linarith
    have hvn : v < n := by
      rcases Nat.lt_succ_iff_lt_or_eq.1 hv with h | h
      · exact h
      · subst h; have := hcom.2.2.1; rw [newa] at this; linarith
    rcases I.good u hun v hvn d hd (ocom u hun v hvn d hcom) with ⟨h1, h2⟩ | ⟨h1, h2, h3⟩
    · exact Or.inl ⟨oend u hun d hcom.2.1 h1, oend v hvn d hcom.2.2.2.1 h2⟩
    · right
      refine ⟨⟨?_, ?_⟩, ⟨?_, ?_⟩, (ocol u hun v hvn).2 h3⟩
      · rw [(old u hun).1]; exact h1.1
      · rcases (old u hun).2.2.2.2.2 with g | g
        · rw [g.2]; linarith
        · rw [g.2]; exact h1.2
      · rw [(old v hvn).1]; exact h2.1
      · rcases (old v hvn).2.2.2.2.2 with g | g
        · rw [g.2]; linarith
        · rw [g.2]; exact h2.2
  · intro u v huv hex d hd
    have hun := oldL u huv.mem_left
    have hvn := oldL v huv.mem_right
    rcases I.adj u v huv hex d (ocom u hun v hvn d hd) with ⟨h1, h2⟩ | ⟨h1, h2⟩
    · exact Or.inl ⟨oend u hun d hd.2.1 h1, oend v hvn d hd.2.2.2.1 h2⟩
    · right
      exact ⟨(ocol u hun v hvn).2 h1, by rw [(old u hun).1, (old v hvn).1]; exact h2⟩
  · refine I.ord.imp_of_mem ?_
    intro u v hu hv h
    have hun := oldL u hu
    have hvn := oldL v hv
    simp only [Lt, ocol u hun v hvn, oy u hun, oy v hvn, (old u hun).1, (old v hvn).1,
      (old u hun).2.1, (old v hvn).2.1, (old u hun).2.2.2.1, (old v hvn).2.2.2.1]
    exact h
  · intro j hj hja u hu hua huy v hv hva hvy
    have hun := oldL u hu
    have hvn := oldL v hv
    rw [(old j (oldL j hj)).1] at hja
    rw [(old u hun).1] at hua
    rw [(old v hvn).1] at hva
    rw [oy u hun] at huy
    rw [oy v hvn] at hvy
    exact (ocol u hun v hvn).2 (I.ph j hj hja u hu hua huy v hv hva hvy)
  · intro u hu hua huy hub j hj hjb
    have hun := oldL u hu
    rw [(old u hun).1] at hua
    rw [oy u hun] at huy
    rw [fb j hj] at hjb
    exact ofk u hun (I.en u hu hua huy (lt_of_lt_of_le hub (old u hun).2.2.2.2.1) j hj hjb)
  · intro u hu v hv e1 e2 hcol hov hlt
    have hun := I.bound u hu
    have hvn := I.bound v hv
    rw [(old u hun).1, (old v hvn).1, lt_min_iff] at hov
    have hcol' := (ocol u hun v hvn).1 hcol
    have hov' : max (A u).a (A v).a < min (A u).b (A v).b :=
      lt_min (lt_of_lt_of_le hov.1 (old u hun).2.2.2.2.1) (lt_of_lt_of_le hov.2 (old v hvn).2.2.2.2.1)
    rcases (old u hun).2.2.2.2.2 with g | g
    · rw [g.2]
      refine ⟨n, by omega, newa, ?_⟩
      rw [cut_n, g.1, cut_i A hin]
      exact ⟨rfl, rfl⟩
    · rw [g.2] at hlt ⊢
      exact ofk u hun (I.ov u hu v hv e1 e2 hcol' hov' (lt_of_lt_of_le hlt (old v hvn).2.2.2.2.1))
  · intro k hk hkb u hu hua huy
    have hun := oldL u hu
    have hkn := oldF k hk
    rw [fb k hk] at hkb
    rw [(old u hun).1] at hua
    rw [oy u hun] at huy
    rw [(old u hun).2.1, (old k hkn).2.1]
    exact I.out k hk hkb u hu hua huy
  · refine I.fsorted.imp_of_mem ?_
    intro u v hu hv h
    rw [fb u hu, fb v hv, (old u (oldF u hu)).2.1, (old v (oldF v hv)).2.1]
    exact h

end Clipping.Sweep

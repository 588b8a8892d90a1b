import Verif.Lemmas.Sweep.Steps

/-!
# Removal, insertion and intersection detection keep the invariant
-/

namespace Clipping.Sweep

variable {Y : ℚ → ℚ} {A : ℕ → Seg} {n : ℕ} {L F : List ℕ} {p : ℚ} {Ex : ℕ → ℕ → Prop}

/-- Finishing a segment: the new neighbours have to be checked. -/
theorem Inv.remove {l₁ l₂ : List ℕ} {j : ℕ} (I : Inv Y A n (l₁ ++ j :: l₂) F p NoEx)
    (hjb : (A j).b = p)
    (hmax : ∀ i ∈ l₁ ++ j :: l₂, (A i).b = p → (A i).m ≤ (A j).m) :
    Inv Y A n (l₁ ++ l₂) (F ++ [j]) p
      (fun u v => l₁.getLast? = some u ∧ l₂.head? = some v) := by
  have hjL : j ∈ l₁ ++ j :: l₂ := by simp
  have hjn : j < n := I.ltn hjL
  have sub : ∀ i ∈ l₁ ++ l₂, i ∈ l₁ ++ j :: l₂ := by
    intro i hi
    simp only [List.mem_append, List.mem_cons] at hi ⊢
    tauto
  have hja : (A j).a < p := hjb ▸ I.proper j hjn
  have hjy : (A j).y p = Y p := by rw [← hjb]; exact (I.endsY j hjn).2
  have perm : ((l₁ ++ l₂) ++ (F ++ [j])).Perm ((l₁ ++ j :: l₂) ++ F) := by
    have e1 : ((l₁ ++ l₂) ++ (F ++ [j])).Perm (j :: (l₁ ++ l₂ ++ F)) := by
      rw [← List.append_assoc]; exact List.perm_append_singleton _ _
    refine e1.trans ?_
    have : (j :: (l₁ ++ l₂)).Perm (l₁ ++ j :: l₂) := List.perm_middle.symm
    exact this.append_right F
  -- segments through the current point are not steeper than the removed one
  have low : ∀ i ∈ l₁ ++ l₂, (A i).a < p → (A i).y p = Y p → (A i).m ≤ (A j).m := by
    intro i hi hia hiy
    by_cases hs : ∃ k ∈ l₁ ++ j :: l₂, (A k).a = p
    · obtain ⟨k, hk, hka⟩ := hs
      exact (I.ph k hk hka i (sub i hi) hia hiy j hjL hja hjy).1.le
    · push Not at hs
      obtain ⟨k, hk, hkb, hcol⟩ := I.ending hs (sub i hi) hjL hiy hjb
      rw [hcol.1]
      exact hmax k hk hkb
  constructor
  · exact perm.nodup_iff.2 I.nodup
  · intro i hi
    exact I.bound i (perm.mem_iff.1 hi)
  · exact I.proper
  · intro i hi h1 h2
    refine I.wait i hi ?_ ?_
    · intro h
      simp only [List.mem_append, List.mem_cons, List.not_mem_nil, or_false] at h h1 h2
      tauto
    · intro h
      exact h2 (by simp [h])
  · intro i hi
    exact I.act i (sub i hi)
  · intro i hi
    rcases List.mem_append.1 hi with h | h
    · exact I.fin i h
    · rw [List.mem_singleton.1 h, hjb]
  · exact I.endsY
  · exact I.crossY
  · exact I.noOv
  · exact I.good
  · intro u v huv hex
    rcases adj_append huv with h | h | h
    · exact I.adj u v (h.append_right _) id
    · exact I.adj u v ((h.cons j).append_left l₁) id
    · exact absurd h hex
  · have := I.ord
    refine this.sublist ?_
    exact List.Sublist.append_left (List.sublist_cons_self _ _) _
  · intro k hk hka i hi hia hiy i' hi' hia' hiy'
    exact I.ph k (sub k hk) hka i (sub i hi) hia hiy i' (sub i' hi') hia' hiy'
  · intro i hi hia hiy hib k hk hkb
    rcases List.mem_append.1 hk with h | h
    · exact I.en i (sub i hi) hia hiy hib k h hkb
    have hx : ∃ k ∈ l₁ ++ j :: l₂, (A k).b = p ∧ Col (A i) (A k) := by
      by_cases hs : ∃ k ∈ l₁ ++ j :: l₂, (A k).a = p
      · obtain ⟨k, hk, hka⟩ := hs
        exact ⟨j, hjL, hjb, I.ph k hk hka i (sub i hi) hia hiy j hjL hja hjy⟩
      · push Not at hs
        exact I.ending hs (sub i hi) hjL hiy hjb
    · obtain ⟨k, hk, hkb, hcol⟩ := hx
      have hka : (A k).a < p := hkb ▸ I.proper k (I.ltn hk)
      obtain ⟨q, hq, hqa, hqc⟩ := I.ov k (by simp only [List.mem_append] at hk ⊢; tauto) i
        (by have := sub i hi; simp only [List.mem_append] at this ⊢; tauto) id id hcol.symm
        (by rw [hkb]; exact max_lt (lt_min hka (by linarith)) (lt_min hia (by linarith)))
        (by rw [hkb]; exact hib)
      exact ⟨q, hq, hqa.trans hkb, hqc.trans hcol.symm⟩
  · intro i hi k hk _ _
    exact I.ov i (perm.mem_iff.1 hi) k (perm.mem_iff.1 hk) id id
  · intro k hk hkb i hi hia hiy
    rcases List.mem_append.1 hk with h | h
    · exact I.out k h hkb i (sub i hi) hia hiy
    · rw [List.mem_singleton.1 h]
      exact low i hi hia hiy
  · refine List.pairwise_append.2 ⟨I.fsorted, List.pairwise_singleton _ _, ?_⟩
    intro i hi k hk
    rw [List.mem_singleton.1 hk, hjb]
    rcases (I.fin i hi).lt_or_eq with h | h
    · exact Or.inl h
    · exact Or.inr ⟨h, I.out i hi h j hjL hja hjy⟩

section Insert

variable {t : ℕ}

/-- order of two segments through the current point of the sweep line -/
theorem Inv.lt_through (I : Inv Y A n L F p NoEx) (hne : ∀ i ∈ L, (A i).b ≠ p) {i j : ℕ}
    (hi : i ∈ L) (hj : j ∈ L) (hiy : (A i).y p = Y p) (hjy : (A j).y p = Y p)
    (h : Lt (A i) (A j)) :
    (Col (A i) (A j) ∧ (A i).ff = true ∧ (A j).ff = false) ∨ (A i).m < (A j).m := by
  rcases h with h | ⟨hnc, h⟩
  · exact Or.inl h
  rcases (I.act i hi).1.lt_or_eq with g | g
  · exact absurd (I.passing hne hi hj hiy hjy g) hnc
  · have hja := I.starts hne hj hi hjy g
    rw [g, hja, max_self, hiy, hjy] at h
    right
    rcases h with h | h
    · exact absurd h (lt_irrefl _)
    · exact h.2

theorem lt_start_left {s t : Seg} (h : Lt s t) (ha : s.a ≤ t.a) :
    s.y t.a < t.y t.a ∨ (s.y t.a = t.y t.a ∧
      ((Col s t ∧ s.ff = true ∧ t.ff = false) ∨ s.m < t.m)) := by
  rcases h with h | ⟨hnc, h⟩
  · exact Or.inr ⟨h.1.y _, Or.inl h⟩
  · rw [max_eq_right ha] at h
    rcases h with h | h
    · exact Or.inl h
    · exact Or.inr ⟨h.1, Or.inr h.2⟩

theorem lt_start_right {s t : Seg} (h : Lt s t) (ha : t.a ≤ s.a) :
    s.y s.a < t.y s.a ∨ (s.y s.a = t.y s.a ∧
      ((Col s t ∧ s.ff = true ∧ t.ff = false) ∨ s.m < t.m)) := by
  rcases h with h | ⟨hnc, h⟩
  · exact Or.inr ⟨h.1.y _, Or.inl h⟩
  · rw [max_eq_left ha] at h
    rcases h with h | h
    · exact Or.inl h
    · exact Or.inr ⟨h.1, Or.inr h.2⟩

theorem lt_of_start_right {s t : Seg} (ha : t.a ≤ s.a) (h : s.y s.a < t.y s.a ∨
    (s.y s.a = t.y s.a ∧ ((Col s t ∧ s.ff = true ∧ t.ff = false) ∨ s.m < t.m))) : Lt s t := by
  rcases h with h | ⟨h1, h2 | h2⟩
  · refine Or.inr ⟨fun hc => absurd (hc.y _) h.ne, ?_⟩
    rw [max_eq_left ha]; exact Or.inl h
  · exact Or.inl h2
  · refine Or.inr ⟨fun hc => absurd hc.1 h2.ne, ?_⟩
    rw [max_eq_left ha]; exact Or.inr ⟨h1, h2⟩

/-- A segment starting at the current point does not overlap with one of its operand. -/
theorem Inv.ff_ne (I : Inv Y A n L F p NoEx) (hne : ∀ i ∈ L, (A i).b ≠ p) (ht : t < n) (htL : t ∉ L)
    (hta : (A t).a = p) {i : ℕ} (hi : i ∈ L) (hc : Col (A i) (A t)) : (A i).ff ≠ (A t).ff := by
  intro hff
  have hit : i ≠ t := by rintro rfl; exact htL hi
  rcases I.noOv i (I.ltn hi) t ht hit hc hff with h | h
  · exact hne i hi (le_antisymm (h.trans hta.le) (I.act i hi).2)
  · have := I.proper t ht
    have := (I.act i hi).1
    linarith

theorem Inv.lt_total (I : Inv Y A n L F p NoEx) (hne : ∀ i ∈ L, (A i).b ≠ p) (ht : t < n)
    (htL : t ∉ L) (hta : (A t).a = p) {i : ℕ} (hi : i ∈ L) : Lt (A t) (A i) ∨ Lt (A i) (A t) := by
  by_cases hc : Col (A i) (A t)
  · have := I.ff_ne hne ht htL hta hi hc
    cases h1 : (A i).ff <;> cases h2 : (A t).ff
    · exact absurd (h1.trans h2.symm) this
    · exact Or.inl (Or.inl ⟨hc.symm, h2, h1⟩)
    · exact Or.inr (Or.inl ⟨hc, h1, h2⟩)
    · exact absurd (h1.trans h2.symm) this
  · have hc' : ¬ Col (A t) (A i) := fun h => hc h.symm
    simp only [Lt, hc, hc', false_and, not_false_iff, true_and, false_or]
    rw [max_comm (A i).a]
    generalize max (A t).a (A i).a = q
    rcases lt_trichotomy ((A t).y q) ((A i).y q) with h | h | h
    · exact Or.inl (Or.inl h)
    · rcases lt_trichotomy ((A t).m) ((A i).m) with g | g | g
      · exact Or.inl (Or.inr ⟨h, g⟩)
      · exact absurd (col_of_slope g h) hc'
      · exact Or.inr (Or.inr ⟨h.symm, g⟩)
    · exact Or.inr (Or.inl h)

/-- The comparisons of a starting segment with the sweep line are monotone. -/
theorem Inv.lt_mono (I : Inv Y A n L F p NoEx) (hne : ∀ i ∈ L, (A i).b ≠ p) (ht : t < n)
    (htL : t ∉ L) (hta : (A t).a = p) :
    L.Pairwise fun x z => Lt (A t) (A x) → Lt (A t) (A z) := by
  have hty : (A t).y p = Y p := by rw [← hta]; exact (I.endsY t ht).1
  refine (I.mono_p.and I.ord).imp_of_mem ?_
  rintro x z hx hz ⟨hxz, hlt⟩ htx
  have hxa := (I.act x hx).1
  have hza := (I.act z hz).1
  have h1 := lt_start_right htx (by rw [hta]; exact hxa)
  refine lt_of_start_right (by rw [hta]; exact hza) ?_
  rw [hta, hty] at h1 ⊢
  rcases h1 with h1 | ⟨h1, h2⟩
  · left; linarith
  · rcases hxz.lt_or_eq with h3 | h3
    · left; linarith
    · right
      refine ⟨h1.trans h3, ?_⟩
      rcases I.lt_through hne hx hz h1.symm (h1.trans h3).symm hlt with ⟨h4, h5, h6⟩ | h4
      · rcases h2 with ⟨h2, h7, h8⟩ | h2
        · rw [h5] at h8; cases h8
        · exact Or.inr (by rw [← h4.1]; exact h2)
      · rcases h2 with ⟨h2, h7, h8⟩ | h2
        · exact Or.inr (by rw [h2.1]; exact h4)
        · exact Or.inr (h2.trans h4)

/-- Adding a segment to the sweep line: the new neighbours have to be checked. -/
theorem Inv.insert {l₁ l₂ : List ℕ} (I : Inv Y A n (l₁ ++ l₂) F p NoEx)
    (hne : ∀ i ∈ l₁ ++ l₂, (A i).b ≠ p) (ht : t < n) (htL : t ∉ l₁ ++ l₂) (htF : t ∉ F)
    (hta : (A t).a = p) (h₁ : ∀ x ∈ l₁, Lt (A x) (A t)) (h₂ : ∀ x ∈ l₂, Lt (A t) (A x)) :
    Inv Y A n (l₁ ++ t :: l₂) F p
      (fun u v => (l₁.getLast? = some u ∧ v = t) ∨ (u = t ∧ l₂.head? = some v)) := by
  have hty : (A t).y p = Y p := by rw [← hta]; exact (I.endsY t ht).1
  have htb : p < (A t).b := hta ▸ I.proper t ht
  have mem : ∀ {i}, i ∈ l₁ ++ t :: l₂ → i = t ∨ i ∈ l₁ ++ l₂ := by
    intro i hi
    simp only [List.mem_append, List.mem_cons] at hi ⊢
    tauto
  have perm : ((l₁ ++ t :: l₂) ++ F).Perm (t :: (l₁ ++ l₂ ++ F)) :=
    (List.perm_middle.append_right F)
  -- collinear neighbours
  have near : ∀ i ∈ l₁ ++ l₂, Col (A i) (A t) → l₁.getLast? = some i ∨ l₂.head? = some i := by
    intro i hi hc
    have hiy : (A i).y p = Y p := by rw [hc.y]; exact hty
    rcases List.mem_append.1 hi with h | h
    · left
      obtain ⟨x, y, rfl⟩ := List.append_of_mem h
      cases y with
      | nil => simp
      | cons m y =>
        exfalso
        have hm : m ∈ (x ++ i :: m :: y) ++ l₂ := by simp
        have adj : Adj ((x ++ i :: m :: y) ++ l₂) i m := ⟨x, y ++ l₂, by simp⟩
        have hmt := h₁ m (by simp)
        have hma := (I.act m hm).1
        have h3 := lt_start_left hmt (by rw [hta]; exact hma)
        have hmono := adj.pairwise I.mono_p
        have him := adj.pairwise I.ord
        rw [hta, hty] at h3
        rcases h3 with h3 | ⟨h3, h4⟩
        · linarith
        rcases I.lt_through hne hi hm hiy h3 him with ⟨h5, h6, h7⟩ | h5
        · rcases h4 with ⟨-, h4, -⟩ | h4
          · rw [h7] at h4; cases h4
          · rw [← h5.1, hc.1] at h4; exact lt_irrefl _ h4
        · rw [hc.1] at h5
          rcases h4 with ⟨h4, -, -⟩ | h4
          · rw [h4.1] at h5; exact lt_irrefl _ h5
          · exact lt_irrefl _ (h4.trans h5)
    · right
      obtain ⟨x, y, rfl⟩ := List.append_of_mem h
      rcases List.eq_nil_or_concat x with rfl | ⟨x, m, rfl⟩
      · simp
      · exfalso
        simp only [List.concat_eq_append] at I hne hi h h₂ htL mem perm
        have hm : m ∈ l₁ ++ ((x ++ [m]) ++ i :: y) := by simp
        have adj : Adj (l₁ ++ ((x ++ [m]) ++ i :: y)) m i := ⟨l₁ ++ x, y, by simp⟩
        have hmt := h₂ m (by simp)
        have hma := (I.act m hm).1
        have h3 := lt_start_right hmt (by rw [hta]; exact hma)
        have hmono := adj.pairwise I.mono_p
        have him := adj.pairwise I.ord
        rw [hta, hty] at h3
        rcases h3 with h3 | ⟨h3, h4⟩
        · linarith
        rcases I.lt_through hne hm hi h3.symm hiy him with ⟨h5, h6, h7⟩ | h5
        · rcases h4 with ⟨-, -, h4⟩ | h4
          · rw [h6] at h4; cases h4
          · rw [h5.1, hc.1] at h4; exact lt_irrefl _ h4
        · rw [hc.1] at h5
          rcases h4 with ⟨h4, -, -⟩ | h4
          · rw [h4.1] at h5; exact lt_irrefl _ h5
          · exact lt_irrefl _ (h4.trans h5)
  constructor
  · rw [perm.nodup_iff, List.nodup_cons]
    exact ⟨fun h => (List.mem_append.1 h).elim htL htF, I.nodup⟩
  · intro i hi
    rcases List.mem_cons.1 (perm.mem_iff.1 hi) with rfl | h
    · exact ht
    · exact I.bound i h
  · exact I.proper
  · intro i hi h1 h2
    exact I.wait i hi (fun h => h1 (by simp only [List.mem_append, List.mem_cons] at h ⊢; tauto)) h2
  · intro i hi
    rcases mem hi with rfl | h
    · exact ⟨hta.le, htb.le⟩
    · exact I.act i h
  · exact I.fin
  · exact I.endsY
  · exact I.crossY
  · exact I.noOv
  · exact I.good
  · intro u v huv hex
    rcases adj_append huv with h | h | h
    · exact I.adj u v (h.append_right _) id
    · have : (u = t ∧ l₂.head? = some v) ∨ Adj l₂ u v := by
        have h' : Adj ([t] ++ l₂) u v := h
        rcases adj_append h' with g | g | g
        · obtain ⟨a, b, hab⟩ := g
          have := congrArg List.length hab
          simp at this
          omega
        · exact Or.inr g
        · left
          refine ⟨?_, g.2⟩
          simpa using g.1.symm
      rcases this with g | g
      · exact absurd (Or.inr g) hex
      · exact I.adj u v (g.append_left l₁) id
    · refine absurd (Or.inl ⟨h.1, ?_⟩) hex
      simpa using h.2.symm
  · refine List.pairwise_append.2 ⟨(List.pairwise_append.1 I.ord).1,
      List.pairwise_cons.2 ⟨h₂, (List.pairwise_append.1 I.ord).2.1⟩, ?_⟩
    intro x hx z hz
    rcases List.mem_cons.1 hz with rfl | hz
    · exact h₁ x hx
    · exact (List.pairwise_append.1 I.ord).2.2 x hx z hz
  · intro _ _ _ i hi hia hiy i' hi' hia' hiy'
    have hi2 : i ∈ l₁ ++ l₂ := (mem hi).resolve_left (by rintro rfl; exact absurd hta hia.ne)
    have hi2' : i' ∈ l₁ ++ l₂ := (mem hi').resolve_left (by rintro rfl; exact absurd hta hia'.ne)
    exact I.passing hne hi2 hi2' hiy hiy' hia
  · intro i hi hia hiy hib k hk hkb
    have hi2 : i ∈ l₁ ++ l₂ := (mem hi).resolve_left (by rintro rfl; exact absurd hta hia.ne)
    exact I.en i hi2 hia hiy hib k hk hkb
  · intro i hi j hj e1 e2 hcol hov hlt
    rcases List.mem_cons.1 (perm.mem_iff.1 hi) with rfl | hi' <;>
      rcases List.mem_cons.1 (perm.mem_iff.1 hj) with rfl | hj'
    · exact absurd hlt (lt_irrefl _)
    · rcases List.mem_append.1 hj' with h | h
      · rcases near j h hcol.symm with g | g
        · exact absurd (Or.inl ⟨g, rfl⟩) e2
        · exact absurd (Or.inr ⟨rfl, g⟩) e1
      · have := I.fin j h
        rw [lt_min_iff, max_lt_iff, max_lt_iff] at hov
        linarith [hov.2.1]
    · rcases List.mem_append.1 hi' with h | h
      · rcases near i h hcol with g | g
        · exact absurd (Or.inl ⟨g, rfl⟩) e1
        · exact absurd (Or.inr ⟨rfl, g⟩) e2
      · have := I.fin i h
        rw [lt_min_iff, max_lt_iff, max_lt_iff] at hov
        linarith [hov.1.2]
    · exact I.ov i hi' j hj' id id hcol hov hlt
  · intro k hk hkb i hi hia hiy
    have hi2 : i ∈ l₁ ++ l₂ := (mem hi).resolve_left (by rintro rfl; exact absurd hta hia.ne)
    exact I.out k hk hkb i hi2 hia hiy
  · exact I.fsorted

end Insert

/-- Cuts of `u` and `v` at points allowed by `G`. -/
inductive Cuts (u v : ℕ) (G : ℚ → Prop) (A : ℕ → Seg) (n : ℕ) : (ℕ → Seg) → ℕ → Prop
  | refl : Cuts u v G A n A n
  | step {A' : ℕ → Seg} {n' : ℕ} {i : ℕ} {c : ℚ} : Cuts u v G A n A' n' → (i = u ∨ i = v) →
      (A' i).a < c → c < (A' i).b → G c → Cuts u v G A n (cut A' n' i c) (n' + 1)

/-- Points where the detection of intersections may cut. -/
def CutAt (s t : Seg) (c : ℚ) : Prop := Com s t c ∧ (¬ Col s t ∨ IsEnd s c ∨ IsEnd t c)

/-- After the detection: every common point is an end point of both, or the segments are equal. -/
def Resolved (s t : Seg) : Prop :=
  ∀ c, Com s t c → (IsEnd s c ∧ IsEnd t c) ∨ (Col s t ∧ s.a = t.a ∧ s.b = t.b)

theorem Inv.cuts (I : Inv Y A n L F p Ex) {u v : ℕ} (hu : u ∈ L) (hv : v ∈ L) {A' : ℕ → Seg} {n' : ℕ}
    (h : Cuts u v (CutAt (A u) (A v)) A n A' n') :
    Inv Y A' n' L F p Ex ∧ ∀ i ∈ L, (A' i).a = (A i).a ∧ (A' i).m = (A i).m ∧ (A' i).k = (A i).k ∧
      (A' i).b ≤ (A i).b := by
  induction h with
  | refl => exact ⟨I, fun i _ => ⟨rfl, rfl, rfl, le_refl _⟩⟩
  | @step A' n' i c hc hi ha hb hG ih =>
    obtain ⟨I', hold⟩ := ih
    have hiL : i ∈ L := by rcases hi with rfl | rfl <;> assumption
    obtain ⟨o1, o2, o3, o4⟩ := hold i hiL
    obtain ⟨hcom, hGc⟩ := hG
    have hun := I.ltn hu
    have hvn := I.ltn hv
    have hend : ¬ (IsEnd (A u) c ∧ IsEnd (A v) c) := by
      rintro ⟨h1, h2⟩
      have : IsEnd (A i) c := by rcases hi with rfl | rfl <;> assumption
      rcases this with h | h
      · rw [o1] at ha; linarith
      · linarith
    have hp : p ≤ c := by
      by_contra hlt
      push Not at hlt
      rcases I.good u hun v hvn c hlt hcom with h | ⟨h1, h2, h3⟩
      · exact hend h
      · rcases hGc with h | (h | h) | (h | h)
        · exact h h3
        · exact absurd h h1.1.ne'
        · exact absurd h h1.2.ne
        · exact absurd h h2.1.ne'
        · exact absurd h h2.2.ne
    have hyu : (A u).y c = Y c := by
      by_cases hcol : Col (A u) (A v)
      · rcases hGc with h | (h | h) | (h | h)
        · exact absurd hcol h
        · rw [h]; exact (I.endsY u hun).1
        · rw [h]; exact (I.endsY u hun).2
        · rw [hcol.y, h]; exact (I.endsY v hvn).1
        · rw [hcol.y, h]; exact (I.endsY v hvn).2
      · exact I.crossY u hun v hvn hcol c hcom
    have hy : (A' i).y c = Y c := by
      rw [y_congr o2 o3]
      rcases hi with rfl | rfl
      · exact hyu
      · rw [← hcom.2.2.2.2]; exact hyu
    refine ⟨I'.cut hiL ha hb hp hy, ?_⟩
    intro j hj
    obtain ⟨q1, q2, q3, q4⟩ := hold j hj
    obtain ⟨r1, r2, r3, -, r5, -⟩ := cut_old A' (I'.ltn hj) (I'.ltn hiL) hb
    exact ⟨r1.trans q1, r2.trans q2, r3.trans q3, r5.trans q4⟩

/-- Checking a pair of neighbours. -/
theorem Inv.detect (I : Inv Y A n L F p Ex) {u v : ℕ} (hu : u ∈ L) (hv : v ∈ L) {A' : ℕ → Seg}
    {n' : ℕ} (h : Cuts u v (CutAt (A u) (A v)) A n A' n') (hr : Resolved (A' u) (A' v)) :
    Inv Y A' n' L F p (fun x y => Ex x y ∧ ¬ (x = u ∧ y = v)) := by
  obtain ⟨I', -⟩ := I.cuts hu hv h
  refine I'.weaken ?_
  intro x y hxy hn
  have : x = u ∧ y = v := by
    by_contra hc
    exact hn ⟨hxy, hc⟩
  obtain ⟨rfl, rfl⟩ := this
  refine ⟨fun c hc => ?_, fun hcol hov => ?_⟩
  · rcases hr c hc with g | ⟨g1, g2, -⟩
    · exact Or.inl g
    · exact Or.inr ⟨g1, g2⟩
  · obtain ⟨c, h1, h2⟩ := exists_between hov
    rw [max_lt_iff] at h1
    rw [lt_min_iff] at h2
    rcases hr c ⟨h1.1.le, h2.1.le, h1.2.le, h2.2.le, hcol.y c⟩ with ⟨g, -⟩ | ⟨-, -, g⟩
    · rcases g with g | g <;> linarith
    · exact g

/-- Finished segments: equal to another one, or meeting it in common end points only. -/
theorem Inv.final_pair (I : Inv Y A n L F p Ex) {i j : ℕ} (hi : i ∈ F) (hib : (A i).b < p)
    (hj : j < n) :
    ((A i).a = (A j).a ∧ (A i).b = (A j).b ∧ Col (A i) (A j) ∧ j ∈ F) ∨
    (∀ c, Com (A i) (A j) c → IsEnd (A i) c ∧ IsEnd (A j) c) := by
  have hin : i < n := I.bound i (by simp [hi])
  by_cases h : ∀ c, Com (A i) (A j) c → IsEnd (A i) c ∧ IsEnd (A j) c
  · exact Or.inr h
  push Not at h
  obtain ⟨c, hc, hce⟩ := h
  left
  rcases I.good i hin j hj c (lt_of_le_of_lt hc.2.1 hib) hc with h | ⟨h1, h2, h3⟩
  · exact absurd h.2 (hce h.1)
  have e1 : (A i).a = (A j).a := by
    have hle : max (A i).a (A j).a ≤ c := max_le h1.1.le h2.1.le
    have hlt : max (A i).a (A j).a < c := max_lt h1.1 h2.1
    have hcm : Com (A i) (A j) (max (A i).a (A j).a) :=
      ⟨le_max_left _ _, by linarith [h1.2], le_max_right _ _, by linarith [h2.2], h3.y _⟩
    rcases I.good i hin j hj _ (by linarith [h1.2]) hcm with ⟨g1, g2⟩ | ⟨g1, g2, -⟩
    · have e1 : max (A i).a (A j).a = (A i).a := g1.resolve_right (by linarith [h1.2])
      have e2 : max (A i).a (A j).a = (A j).a := g2.resolve_right (by linarith [h2.2])
      exact e1.symm.trans e2
    · rcases max_choice (A i).a (A j).a with e | e
      · exact absurd g1.1 (by rw [e]; exact lt_irrefl _)
      · exact absurd g2.1 (by rw [e]; exact lt_irrefl _)
  have e2 : (A i).b = (A j).b := by
    have hlt : c < min (A i).b (A j).b := lt_min h1.2 h2.2
    have hcm : Com (A i) (A j) (min (A i).b (A j).b) :=
      ⟨by linarith [h1.1], min_le_left _ _, by linarith [h2.1], min_le_right _ _, h3.y _⟩
    rcases I.good i hin j hj _ (lt_of_le_of_lt (min_le_left _ _) hib) hcm with ⟨g1, g2⟩ | ⟨g1, g2, -⟩
    · have e1 : min (A i).b (A j).b = (A i).b := g1.resolve_left (by linarith [h1.1])
      have e2 : min (A i).b (A j).b = (A j).b := g2.resolve_left (by linarith [h2.1])
      exact e1.symm.trans e2
    · rcases min_choice (A i).b (A j).b with e | e
      · exact absurd g1.2 (by rw [e]; exact lt_irrefl _)
      · exact absurd g2.2 (by rw [e]; exact lt_irrefl _)
  refine ⟨e1, e2, h3, ?_⟩
  by_contra hjF
  by_cases hjL : j ∈ L
  · have := (I.act j hjL).2
    linarith
  · have := I.wait j hj hjL hjF
    linarith [h2.1, h1.2]

/-- Equal finished segments are neighbours in the list of finished segments. -/
theorem Inv.final_adj (I : Inv Y A n L F p Ex) {i j : ℕ} {l₁ l₂ l₃ : List ℕ}
    (hF : F = l₁ ++ i :: l₂ ++ j :: l₃) (hb : (A i).b = (A j).b)
    (hc : Col (A i) (A j)) : l₂ = [] := by
  cases l₂ with
  | nil => rfl
  | cons x l₂ =>
    exfalso
    have hiF : i ∈ F := by rw [hF]; simp
    have hjF : j ∈ F := by rw [hF]; simp
    have hxF : x ∈ F := by rw [hF]; simp
    have hn : ∀ {k}, k ∈ F → k < n := fun {k} hk => I.bound k (by simp [hk])
    have hs := I.fsorted
    have nd := (List.nodup_append.1 I.nodup).2.1
    rw [hF] at hs nd
    simp only [List.append_assoc, List.cons_append, List.pairwise_append, List.pairwise_cons,
      List.mem_append, List.mem_cons] at hs
    have hix := hs.2.1.1 x (by simp)
    have hxj := hs.2.1.2.1 j (by simp)
    have hbx : (A x).b = (A i).b := by
      rcases hix with h | h
      · rcases hxj with g | g <;> linarith
      · exact h.1.symm
    have hmx : (A x).m = (A i).m := by
      rcases hix with h | h
      · linarith
      · rcases hxj with g | g
        · linarith
        · exact le_antisymm h.2 (hc.1 ▸ g.2)
    have hcx : Col (A i) (A x) := by
      refine col_of_slope (c := (A i).b) hmx.symm ?_
      rw [(I.endsY i (hn hiF)).2, ← hbx, (I.endsY x (hn hxF)).2]
    simp only [List.append_assoc, List.cons_append, List.nodup_append, List.nodup_cons,
      List.mem_append, List.mem_cons] at nd
    have hix' : i ≠ x := fun h => nd.2.1.1 (by simp [h])
    have hij' : i ≠ j := fun h => nd.2.1.1 (by simp [h])
    have hxj' : x ≠ j := fun h => nd.2.1.2.1 (by simp [h])
    have pi := I.proper i (hn hiF)
    have px := I.proper x (hn hxF)
    have pj := I.proper j (hn hjF)
    have f1 : (A i).ff ≠ (A x).ff := by
      intro h
      rcases I.noOv i (hn hiF) x (hn hxF) hix' hcx h with g | g <;> linarith
    have f2 : (A i).ff ≠ (A j).ff := by
      intro h
      rcases I.noOv i (hn hiF) j (hn hjF) hij' hc h with g | g <;> linarith
    have f3 : (A x).ff ≠ (A j).ff := by
      intro h
      rcases I.noOv x (hn hxF) j (hn hjF) hxj' (hcx.symm.trans hc) h with g | g <;> linarith
    cases h1 : (A i).ff <;> cases h2 : (A x).ff <;> cases h3 : (A j).ff <;> simp_all

end Clipping.Sweep

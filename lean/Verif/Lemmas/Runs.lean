import Verif.Model.Linear
import Mathlib.Data.List.Perm.Basic

/-!
# Runs of equal keys, sorting of end points
-/

namespace Clipping

variable {β κ : Type} [DecidableEq κ] {key : β → κ}

/-- Elements with the same key stand together. -/
def Contig (key : β → κ) (l : List β) : Prop :=
  ∀ l₁ l₂ l₃ i j, l = l₁ ++ i :: l₂ ++ j :: l₃ → key i = key j → ∀ x ∈ l₂, key x = key i

theorem Contig.tail {x : β} {l : List β} (h : Contig key (x :: l)) : Contig key l := by
  intro l₁ l₂ l₃ i j e hk
  exact h (x :: l₁) l₂ l₃ i j (by rw [e]; rfl) hk

theorem groupRuns_head (x : β) (l : List β) : ∃ g rest, groupRuns key (x :: l) = (key x, g) :: rest := by
  unfold groupRuns
  split
  · exact ⟨_, _, rfl⟩
  · split_ifs with h
    · exact ⟨_, _, by rw [h]⟩
    · exact ⟨_, _, rfl⟩

theorem groupRuns_keys (l : List β) : ((groupRuns key l).map Prod.fst).Sublist (l.map key) := by
  induction l with
  | nil => simp [groupRuns]
  | cons x l ih =>
    unfold groupRuns
    split
    · rename_i h
      simp
    · rename_i k g rest h
      rw [h] at ih
      split_ifs with hk
      · simp only [List.map_cons] at ih ⊢
        exact ih.trans (List.sublist_cons_self _ _)
      · simp only [List.map_cons] at ih ⊢
        exact ih.cons_cons _

theorem groupRuns_nodup {l : List β} (h : Contig key l) : ((groupRuns key l).map Prod.fst).Nodup := by
  induction l with
  | nil => simp [groupRuns]
  | cons x l ih =>
    have ih := ih h.tail
    cases l with
    | nil => simp [groupRuns]
    | cons y l =>
      obtain ⟨g, rest, e⟩ := groupRuns_head (key := key) y l
      have hs := groupRuns_keys (key := key) (y :: l)
      unfold groupRuns
      rw [e] at ih hs ⊢
      dsimp only
      split_ifs with hk
      · exact ih
      · simp only [List.map_cons, List.nodup_cons] at ih ⊢
        refine ⟨?_, ih⟩
        intro hm
        have hm' : key x ∈ (y :: l).map key := hs.subset (by simpa using hm)
        obtain ⟨z, hz, hzk⟩ := List.mem_map.1 hm'
        rcases List.mem_cons.1 hz with rfl | hz
        · exact hk hzk.symm
        · obtain ⟨l₂, l₃, rfl⟩ := List.append_of_mem hz
          have := h [] (y :: l₂) l₃ x z (by simp) hzk.symm y (by simp)
          exact hk this.symm

theorem groupRuns_mem {l : List β} (h : Contig key l) (k : κ) (g : List β) :
    (k, g) ∈ groupRuns key l ↔ (∃ x ∈ l, key x = k) ∧ g = l.filter fun x => decide (key x = k) := by
  induction l generalizing k g with
  | nil => simp [groupRuns]
  | cons x l ih =>
    have nd := groupRuns_nodup h
    have ih := ih h.tail
    cases l with
    | nil =>
      simp only [groupRuns, List.mem_cons, Prod.mk.injEq, List.not_mem_nil, or_false, List.filter_cons,
        List.filter_nil]
      constructor
      · rintro ⟨rfl, rfl⟩; simp
      · rintro ⟨⟨y, rfl, rfl⟩, rfl⟩; simp
    | cons y l =>
      obtain ⟨g₀, rest, e⟩ := groupRuns_head (key := key) y l
      have hs := groupRuns_keys (key := key) (y :: l)
      have e0 : groupRuns key (x :: y :: l) = if key x = key y then (key y, x :: g₀) :: rest
          else (key x, [x]) :: (key y, g₀) :: rest := by
        conv_lhs => unfold groupRuns
        rw [e]
      rw [e0] at nd ⊢
      rw [e] at ih hs
      by_cases hk : key x = key y
      · rw [if_pos hk] at nd ⊢
        simp only [List.map_cons, List.nodup_cons] at nd
        by_cases hkk : k = key y
        · subst hkk
          have hg := (ih (key y) g₀).1 (by simp)
          rw [List.filter_cons_of_pos (by simpa using hk)]
          constructor
          · intro hm
            rcases List.mem_cons.1 hm with hm | hm
            · cases hm
              exact ⟨⟨x, by simp, hk⟩, by rw [hg.2]⟩
            · exact absurd (List.mem_map_of_mem (f := Prod.fst) hm) nd.1
          · rintro ⟨-, rfl⟩
            rw [← hg.2]; simp
        · rw [List.filter_cons_of_neg (by simpa [hk] using fun h => hkk h.symm)]
          have := ih k g
          simp only [List.mem_cons, Prod.mk.injEq, hkk, false_and, false_or] at this ⊢
          rw [this]
          constructor
          · rintro ⟨⟨z, hz, h1⟩, h2⟩; exact ⟨⟨z, Or.inr hz, h1⟩, h2⟩
          · rintro ⟨⟨z, hz, h1⟩, h2⟩
            rcases hz with rfl | hz
            · exact absurd (h1.symm.trans hk) hkk
            · exact ⟨⟨z, hz, h1⟩, h2⟩
      · rw [if_neg hk] at nd ⊢
        simp only [List.map_cons] at nd
        by_cases hkk : k = key x
        · subst hkk
          have none : ∀ z ∈ y :: l, key z ≠ key x := by
            intro z hz hzk
            rcases List.mem_cons.1 hz with rfl | hz
            · exact hk hzk.symm
            · obtain ⟨l₂, l₃, rfl⟩ := List.append_of_mem hz
              have := h [] (y :: l₂) l₃ x z (by simp) hzk.symm y (by simp)
              exact hk this.symm
          rw [List.filter_cons_of_pos (by simp), List.filter_eq_nil_iff.2 (by simpa using none)]
          constructor
          · intro hm
            rcases List.mem_cons.1 hm with hm | hm
            · cases hm; exact ⟨⟨x, by simp, rfl⟩, rfl⟩
            · exact absurd (List.mem_map_of_mem (f := Prod.fst) hm) (List.nodup_cons.1 nd).1
          · rintro ⟨-, rfl⟩; simp
        · rw [List.filter_cons_of_neg (by simpa using fun h => hkk h.symm), List.mem_cons, ih k g]
          simp only [Prod.mk.injEq, hkk, false_and, false_or, List.mem_cons]
          constructor
          · rintro ⟨⟨z, hz, h1⟩, h2⟩; exact ⟨⟨z, Or.inr hz, h1⟩, h2⟩
          · rintro ⟨⟨z, hz, h1⟩, h2⟩
            rcases hz with rfl | hz
            · exact absurd h1.symm hkk
            · exact ⟨⟨z, hz, h1⟩, h2⟩

theorem allEqual_iff (l : List Bool) : allEqual l = true ↔ ∀ a ∈ l, ∀ b ∈ l, a = b := by
  cases l with
  | nil => simp [allEqual]
  | cons x l =>
    unfold allEqual
    simp only [List.all_eq_true, beq_iff_eq]
    constructor
    · intro h a ha b hb
      have : ∀ c ∈ x :: l, c = x := by
        intro c hc
        rcases List.mem_cons.1 hc with rfl | hc
        · rfl
        · exact h c hc
      rw [this a ha, this b hb]
    · intro h c hc
      exact h c (by simp [hc]) x (by simp)

theorem endpointsLe_total (s t : Segment) : endpointsLe s t ∨ endpointsLe t s := by
  unfold endpointsLe
  rcases lt_trichotomy s.start t.start with h | h | h
  · exact Or.inl (Or.inl h)
  · rcases le_total s.stop t.stop with g | g
    · exact Or.inl (Or.inr ⟨h, g⟩)
    · exact Or.inr (Or.inr ⟨h.symm, g⟩)
  · exact Or.inr (Or.inl h)

theorem endpointsLe_trans {s t r : Segment} (h : endpointsLe s t) (g : endpointsLe t r) : endpointsLe s r := by
  unfold endpointsLe at *
  rcases h with h | ⟨h, h'⟩ <;> rcases g with g | ⟨g, g'⟩
  · exact Or.inl (h.trans g)
  · exact Or.inl (g ▸ h)
  · exact Or.inl (h ▸ g)
  · exact Or.inr ⟨h.trans g, h'.trans g'⟩

theorem endpointsLe_antisymm {s t : Segment} (h : endpointsLe s t) (g : endpointsLe t s) : s = t := by
  unfold endpointsLe at *
  have key : s.start = t.start ∧ s.stop = t.stop := by
    rcases h with h | ⟨h, h'⟩ <;> rcases g with g | ⟨g, g'⟩
    · exact absurd h g.asymm
    · exact absurd g h.ne'
    · exact absurd h g.ne'
    · exact ⟨h, le_antisymm h' g'⟩
  cases s; cases t; simp_all

instance : Std.Total endpointsLe := ⟨endpointsLe_total⟩
instance : IsTrans Segment endpointsLe := ⟨fun _ _ _ => endpointsLe_trans⟩
instance : Std.Antisymm endpointsLe := ⟨fun _ _ => endpointsLe_antisymm⟩

theorem sortEndpoints_perm (l : List Segment) : (sortEndpoints l).Perm l := List.perm_insertionSort _ _

theorem sortEndpoints_sorted (l : List Segment) : (sortEndpoints l).Pairwise endpointsLe :=
  List.pairwise_insertionSort _ _

end Clipping

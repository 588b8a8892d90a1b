import Verif.Model.Shaped
import Verif.Lemmas.Runs
import Verif.Lemmas.Mixed.Complete
import Mathlib.Logic.Function.Iterate
import Mathlib.Data.List.GetD
import Mathlib.Data.List.TakeWhile

/-!
# Events with the same start are linked in a cycle
-/

namespace Clipping

open Sweep

/-- The position after `p` among `R` right events and `L` left events with the same start: right events in ascending
order, then left events in descending order, and around. -/
def nextPos (R L p : ℕ) : ℕ :=
  if p + 1 < R then p + 1
  else if p + 1 = R then (if L = 0 then 0 else R + L - 1)
  else if p = R then (if R = 0 then R + L - 1 else 0)
  else p - 1

theorem groupConnectivity_length (index R L : ℕ) : (groupConnectivity index R L).length = R + L := by
  unfold groupConnectivity
  rw [List.length_append]
  congr 1
  · split_ifs with h
    · simp [h]
    all_goals simp; omega
  · split_ifs with h
    · simp [h]
    all_goals simp; omega

theorem groupConnectivity_get (index R L : ℕ) {p : ℕ} (hp : p < R + L) :
    (groupConnectivity index R L).getD p 0 = index + nextPos R L p := by
  have hn : ∀ x, (p + 1 < R → x = index + (p + 1)) → (p + 1 = R → x = index + (if L = 0 then 0 else R + L - 1)) →
      (p = R → x = index + (if R = 0 then R + L - 1 else 0)) → (R < p → x = index + (p - 1)) →
      x = index + nextPos R L p := by
    intro x h1 h2 h3 h4
    unfold nextPos
    split_ifs at * <;> grind
  unfold groupConnectivity
  apply hn
  · intro h
    rw [if_neg (by omega), List.getD_append _ _ _ _ (by simp; omega), List.getD_append _ _ _ _ (by simp; omega),
      List.getD_eq_getElem _ _ (by simp; omega)]
    simp; omega
  · intro h
    rw [if_neg (by omega), List.getD_append _ _ _ _ (by simp; omega), List.getD_append_right _ _ _ _ (by simp; omega)]
    have : p - ((List.range (R - 1)).map fun k => index + k + 1).length = 0 := by simp; omega
    rw [this, List.getD_cons_zero]
    split_ifs <;> omega
  · intro h
    subst h
    have hL : L ≠ 0 := by omega
    rw [List.getD_append_right _ _ _ _ (by split_ifs <;> simp <;> omega), if_neg hL]
    have : ∀ x : ℕ, p - (if p = 0 then [] else ((List.range (p - 1)).map fun k => index + k + 1) ++ [x]).length = 0 := by
      intro x; split_ifs <;> simp <;> omega
    rw [this, List.getD_cons_zero]
    split_ifs <;> omega
  · intro h
    have hL : L ≠ 0 := by omega
    rw [List.getD_append_right _ _ _ _ (by split_ifs <;> simp <;> omega), if_neg hL]
    have : ∀ x : ℕ, p - (if R = 0 then [] else ((List.range (R - 1)).map fun k => index + k + 1) ++ [x]).length =
        (p - R - 1) + 1 := by
      intro x; split_ifs <;> simp <;> omega
    rw [this, List.getD_cons_succ, List.getD_eq_getElem _ _ (by simp; omega)]
    simp; omega

/-- position in the cycle -/
def cyclePos (R L p : ℕ) : ℕ := if p < R then p else R + (R + L - 1 - p)

theorem cyclePos_lt {R L p : ℕ} (hp : p < R + L) : cyclePos R L p < R + L := by
  unfold cyclePos; split_ifs <;> omega

theorem cyclePos_invol {R L p : ℕ} (hp : p < R + L) : cyclePos R L (cyclePos R L p) = p := by
  unfold cyclePos; split_ifs <;> omega

theorem nextPos_lt {R L p : ℕ} (hp : p < R + L) : nextPos R L p < R + L := by
  unfold nextPos; split_ifs <;> omega

theorem cyclePos_next {R L p : ℕ} (hp : p < R + L) : cyclePos R L (nextPos R L p) = (cyclePos R L p + 1) % (R + L) := by
  have key : cyclePos R L (nextPos R L p) = if cyclePos R L p + 1 = R + L then 0 else cyclePos R L p + 1 := by
    unfold nextPos cyclePos
    split_ifs <;> omega
  rw [key]
  have := cyclePos_lt hp
  split_ifs with h
  · rw [h, Nat.mod_self]
  · rw [Nat.mod_eq_of_lt (by omega)]

theorem iter_lt {R L p : ℕ} (hp : p < R + L) (k : ℕ) : (nextPos R L)^[k] p < R + L := by
  induction k with
  | zero => exact hp
  | succ k ih => rw [Function.iterate_succ_apply']; exact nextPos_lt ih

theorem cyclePos_iter {R L p : ℕ} (hp : p < R + L) (k : ℕ) :
    cyclePos R L ((nextPos R L)^[k] p) = (cyclePos R L p + k) % (R + L) := by
  induction k with
  | zero => rw [Function.iterate_zero, id_eq, Nat.add_zero, Nat.mod_eq_of_lt (cyclePos_lt hp)]
  | succ k ih =>
    rw [Function.iterate_succ_apply', cyclePos_next (iter_lt hp k), ih, Nat.mod_add_mod, Nat.add_assoc]

/-- Every position of the cycle is reached. -/
theorem nextPos_reach {R L p q : ℕ} (hp : p < R + L) (hq : q < R + L) :
    ∃ k, 0 < k ∧ k ≤ R + L ∧ (nextPos R L)^[k] p = q := by
  have h1 := cyclePos_lt hp
  have h2 := cyclePos_lt hq
  have key : ∀ k, (cyclePos R L p + k) % (R + L) = cyclePos R L q → (nextPos R L)^[k] p = q := by
    intro k hk
    have := cyclePos_iter hp k
    rw [hk] at this
    rw [← cyclePos_invol (iter_lt hp k), this, cyclePos_invol hq]
  by_cases h : cyclePos R L p < cyclePos R L q
  · refine ⟨cyclePos R L q - cyclePos R L p, by omega, by omega, key _ ?_⟩
    rw [Nat.add_sub_cancel' h.le, Nat.mod_eq_of_lt h2]
  · refine ⟨R + L + cyclePos R L q - cyclePos R L p, by omega, by omega, key _ ?_⟩
    rw [Nat.add_sub_cancel' (by omega), Nat.add_mod_left, Nat.mod_eq_of_lt h2]

/-- number of elements of groups -/
def total {κ β : Type} (gs : List (κ × List β)) : ℕ := (gs.flatMap Prod.snd).length

theorem total_cons {κ β : Type} (k : κ) (g : List β) (gs : List (κ × List β)) :
    total ((k, g) :: gs) = g.length + total gs := by
  unfold total; rw [List.flatMap_cons, List.length_append]

theorem total_append {κ β : Type} (gs gs' : List (κ × List β)) : total (gs ++ gs') = total gs + total gs' := by
  unfold total; rw [List.flatMap_append, List.length_append]

/-- number of right events at the beginning of a group -/
def rightsCount (g : List Ev) : ℕ := (g.takeWhile fun e => !Heap.isLeft e).length

theorem rightsCount_le (g : List Ev) : rightsCount g ≤ g.length := (List.takeWhile_sublist _).length_le

theorem connectivityFrom_length {κ : Type} : ∀ (gs : List (κ × List Ev)) (index : ℕ),
    (connectivityFrom index gs).length = total gs := by
  intro gs
  induction gs with
  | nil => intro index; rfl
  | cons x gs ih =>
    intro index
    obtain ⟨k, g⟩ := x
    simp only [connectivityFrom]
    rw [List.length_append, groupConnectivity_length, ih, total_cons]
    have := rightsCount_le g
    unfold rightsCount at this
    omega

theorem connectivityFrom_get {κ : Type} : ∀ (gs₁ : List (κ × List Ev)) (k : κ) (g : List Ev) (gs₂ : List (κ × List Ev))
    (index p : ℕ), p < g.length → (connectivityFrom index (gs₁ ++ (k, g) :: gs₂)).getD (total gs₁ + p) 0 =
      index + total gs₁ + nextPos (rightsCount g) (g.length - rightsCount g) p := by
  intro gs₁
  induction gs₁ with
  | nil =>
    intro k g gs₂ index p hp
    have h1 := rightsCount_le g
    simp only [List.nil_append, connectivityFrom]
    have t0 : total ([] : List (κ × List Ev)) = 0 := rfl
    rw [t0, Nat.zero_add, Nat.add_zero, List.getD_append _ _ _ _ (by
      rw [groupConnectivity_length]; unfold rightsCount at h1; omega)]
    exact groupConnectivity_get _ _ _ (by unfold rightsCount at h1; omega)
  | cons x gs₁ ih =>
    intro k g gs₂ index p hp
    obtain ⟨k', g'⟩ := x
    have h1 := rightsCount_le g'
    have hl : (groupConnectivity index (rightsCount g') (g'.length - rightsCount g')).length = g'.length := by
      rw [groupConnectivity_length]; omega
    rw [List.cons_append]
    simp only [connectivityFrom]
    change (groupConnectivity index (rightsCount g') (g'.length - rightsCount g') ++ _).getD _ 0 = _
    rw [total_cons, List.getD_append_right _ _ _ _ (by rw [hl]; omega), hl]
    have : g'.length + total gs₁ + p - g'.length = total gs₁ + p := by omega
    rw [this, ih k g gs₂ _ p hp]
    omega

theorem groupRuns_flatMap {β κ : Type} [DecidableEq κ] (key : β → κ) (l : List β) :
    (groupRuns key l).flatMap Prod.snd = l := by
  induction l with
  | nil => rfl
  | cons x l ih =>
    unfold groupRuns
    split
    · rename_i h
      rw [h] at ih
      simp only [List.flatMap_nil] at ih
      rw [← ih]; rfl
    · rename_i k g rest h
      rw [h, List.flatMap_cons] at ih
      split_ifs with hk
      · rw [List.flatMap_cons, List.cons_append, ih]
      · rw [List.flatMap_cons, List.flatMap_cons, ih]; rfl

/-- the group of an index -/
theorem group_of_index {κ β : Type} : ∀ (gs : List (κ × List β)) (i : ℕ), i < total gs →
    ∃ gs₁ k g gs₂ p, gs = gs₁ ++ (k, g) :: gs₂ ∧ i = total gs₁ + p ∧ p < g.length := by
  intro gs
  induction gs with
  | nil => intro i hi; exact absurd hi (by simp [total])
  | cons x gs ih =>
    intro i hi
    obtain ⟨k, g⟩ := x
    rw [total_cons] at hi
    by_cases h : i < g.length
    · exact ⟨[], k, g, gs, i, rfl, by simp [total], h⟩
    · obtain ⟨gs₁, k', g', gs₂, p, e, hi', hp⟩ := ih (i - g.length) (by omega)
      exact ⟨(k, g) :: gs₁, k', g', gs₂, p, by rw [e]; rfl, by rw [total_cons]; omega, hp⟩

/-- The list links elements with the same key in a cycle: right events in ascending order, then left events in
descending order.  `pos` is the position in the cycle. -/
structure IsRotation (conn : List ℕ) (key : ℕ → Point) (n : ℕ) (left : ℕ → Prop) (pos : ℕ → ℕ) (size : Point → ℕ) :
    Prop where
  length : conn.length = n
  lt : ∀ i < n, conn.getD i 0 < n
  same : ∀ i < n, key (conn.getD i 0) = key i
  pos_lt : ∀ i < n, pos i < size (key i)
  size_le : ∀ i < n, size (key i) ≤ n
  pos_next : ∀ i < n, pos (conn.getD i 0) = (pos i + 1) % size (key i)
  pos_inj : ∀ i < n, ∀ j < n, key i = key j → pos i = pos j → i = j
  order : ∀ i < n, ∀ j < n, key i = key j → pos i < pos j →
    (¬ left i ∧ left j) ∨ (¬ left i ∧ ¬ left j ∧ i < j) ∨ (left i ∧ left j ∧ j < i)

theorem unique_split {κ : Type} {β : Type} {gs₁ gs₂ gs₁' gs₂' : List (κ × β)} {k : κ} {g g' : β}
    (nd : ((gs₁ ++ (k, g) :: gs₂).map Prod.fst).Nodup) (h : gs₁ ++ (k, g) :: gs₂ = gs₁' ++ (k, g') :: gs₂') :
    gs₁ = gs₁' ∧ g = g' ∧ gs₂ = gs₂' := by
  induction gs₁ generalizing gs₁' with
  | nil =>
    cases gs₁' with
    | nil => simp only [List.nil_append, List.cons.injEq, Prod.mk.injEq, true_and] at h; exact ⟨rfl, h.1, h.2⟩
    | cons x gs₁' =>
      simp only [List.nil_append, List.cons_append, List.cons.injEq] at h
      simp only [List.nil_append, List.map_cons, List.nodup_cons] at nd
      exfalso
      apply nd.1
      rw [h.2]
      simp
  | cons x gs₁ ih =>
    cases gs₁' with
    | nil =>
      simp only [List.nil_append, List.cons_append, List.cons.injEq] at h
      simp only [List.cons_append, List.map_cons, List.nodup_cons] at nd
      exfalso
      apply nd.1
      rw [h.1]
      simp
    | cons y gs₁' =>
      simp only [List.cons_append, List.cons.injEq] at h
      simp only [List.cons_append, List.map_cons, List.nodup_cons] at nd
      obtain ⟨h1, h2, h3⟩ := ih nd.2 h.2
      exact ⟨by rw [h.1, h1], h2, h3⟩

/-- start of an event given by its number -/
def startAt (h : Heap ShapedData) (events : List Ev) (i : ℕ) : Point := h.evStart (events.getD i (.left 0))

/-- the event is a left one -/
def leftAt (events : List Ev) (i : ℕ) : Prop := Heap.isLeft (events.getD i (.left 0)) = true

theorem eventsToConnectivity_rotation {h : Heap ShapedData} {events : List Ev}
    (sorted : events.Pairwise fun e f => h.evStart e ≤ h.evStart f)
    (sides : ∀ i j, i < j → j < events.length → startAt h events i = startAt h events j → leftAt events i →
      leftAt events j) :
    ∃ pos size, IsRotation (eventsToConnectivity h events) (startAt h events) events.length (leftAt events) pos size := by
  have ct := contig_of_sorted h.evStart sorted
  have nd := groupRuns_nodup ct
  set gs := groupRuns h.evStart events with hgs
  have fl : gs.flatMap Prod.snd = events := groupRuns_flatMap _ _
  have tot : total gs = events.length := by unfold total; rw [fl]
  have ev_group : ∀ {gs₁ k g gs₂}, gs = gs₁ ++ (k, g) :: gs₂ → ∀ p (hp : p < g.length),
      events.getD (total gs₁ + p) (.left 0) = g[p] := by
    intro gs₁ k g gs₂ e p hp
    rw [← fl, e, List.flatMap_append, List.flatMap_cons]
    unfold total
    rw [List.getD_append_right _ _ _ _ (by omega), Nat.add_sub_cancel_left, List.getD_append _ _ _ _ hp,
      List.getD_eq_getElem _ _ hp]
  have at_group : ∀ {gs₁ k g gs₂}, gs = gs₁ ++ (k, g) :: gs₂ → ∀ p < g.length, startAt h events (total gs₁ + p) = k := by
    intro gs₁ k g gs₂ e p hp
    have hmem : (k, g) ∈ gs := by rw [e]; simp
    obtain ⟨-, hg⟩ := (groupRuns_mem ct k g).1 hmem
    unfold startAt
    rw [ev_group e p hp]
    have : g[p] ∈ events.filter fun x => decide (h.evStart x = k) := by
      have m : g[p] ∈ g := List.getElem_mem hp
      rwa [← hg]
    rw [List.mem_filter] at this
    simpa using this.2
  have step : ∀ {gs₁ k g gs₂}, gs = gs₁ ++ (k, g) :: gs₂ → ∀ p < g.length,
      (eventsToConnectivity h events).getD (total gs₁ + p) 0 =
        total gs₁ + nextPos (rightsCount g) (g.length - rightsCount g) p := by
    intro gs₁ k g gs₂ e p hp
    unfold eventsToConnectivity
    rw [← hgs, e, connectivityFrom_get _ _ _ _ _ _ hp, Nat.zero_add]
  have size : ∀ g : List Ev, rightsCount g + (g.length - rightsCount g) = g.length := by
    intro g; have := rightsCount_le g; omega
  have le_tot : ∀ {gs₁ k g gs₂}, gs = gs₁ ++ (k, g) :: gs₂ → total gs₁ + g.length ≤ events.length := by
    intro gs₁ k g gs₂ e
    rw [← tot, e, total_append, total_cons]; omega
  -- sides
  have side : ∀ {gs₁ k g gs₂}, gs = gs₁ ++ (k, g) :: gs₂ → ∀ p < g.length,
      (leftAt events (total gs₁ + p) ↔ rightsCount g ≤ p) := by
    intro gs₁ k g gs₂ e p hp
    have first : ∀ q (hq : q < g.length), q < rightsCount g → ¬ leftAt events (total gs₁ + q) := by
      intro q hq hqR
      unfold leftAt
      rw [ev_group e q hq]
      have hpre := List.takeWhile_prefix (fun e => !Heap.isLeft e) (l := g)
      have hget := hpre.getElem hqR
      have hm := List.mem_takeWhile_imp (List.getElem_mem hqR)
      rw [hget] at hm
      simpa using hm
    constructor
    · intro hl
      by_contra hn
      exact first p hp (by omega) hl
    · intro hR
      have hlen : rightsCount g < g.length := by omega
      have hR0 : leftAt events (total gs₁ + rightsCount g) := by
        unfold leftAt
        rw [ev_group e _ hlen]
        by_contra hn
        have := List.takeWhile_append_dropWhile (p := fun e => !Heap.isLeft e) (l := g)
        have hd : (g.dropWhile fun e => !Heap.isLeft e) ≠ [] := by
          intro h0
          rw [h0, List.append_nil] at this
          have := congrArg List.length this
          unfold rightsCount at hlen
          omega
        have hhead := List.head_dropWhile_not (fun e => !Heap.isLeft e) hd
        have : g[rightsCount g] = (g.dropWhile fun e => !Heap.isLeft e).head hd := by
          have e1 : g[rightsCount g]? = (g.dropWhile fun e => !Heap.isLeft e).head? := by
            have e2 := congrArg (fun l => l[rightsCount g]?) this
            rw [← e2, List.getElem?_append_right (by unfold rightsCount; exact le_refl _)]
            unfold rightsCount
            rw [Nat.sub_self, List.head?_eq_getElem?]
          rw [List.getElem?_eq_getElem hlen, List.head?_eq_some_head hd] at e1
          exact Option.some.inj e1
        rw [this] at hn
        simp only [Bool.not_eq_false'] at hhead
        exact hn hhead
      rcases hR.eq_or_lt with h1 | h1
      · rw [← h1]; exact hR0
      · have := le_tot e
        exact sides _ _ (by omega) (by omega) ((at_group e _ hlen).trans (at_group e p hp).symm) hR0
  -- numbers of groups
  have numbers : ∀ k, ∃ B R L : ℕ, ∀ gs₁ g gs₂, gs = gs₁ ++ (k, g) :: gs₂ →
      B = total gs₁ ∧ R = rightsCount g ∧ L = g.length - rightsCount g := by
    intro k
    by_cases hk : ∃ gs₁ g gs₂, gs = gs₁ ++ (k, g) :: gs₂
    · obtain ⟨gs₁, g, gs₂, e⟩ := hk
      refine ⟨total gs₁, rightsCount g, g.length - rightsCount g, ?_⟩
      intro gs₁' g' gs₂' e'
      obtain ⟨rfl, rfl, rfl⟩ := unique_split (by rw [← e]; exact nd) (e.symm.trans e')
      exact ⟨rfl, rfl, rfl⟩
    · exact ⟨0, 0, 0, fun gs₁ g gs₂ e => absurd ⟨gs₁, g, gs₂, e⟩ hk⟩
  choose B R L hB using numbers
  have pos_eq : ∀ {gs₁ k g gs₂}, gs = gs₁ ++ (k, g) :: gs₂ → ∀ p < g.length,
      cyclePos (R (startAt h events (total gs₁ + p))) (L (startAt h events (total gs₁ + p)))
        (total gs₁ + p - B (startAt h events (total gs₁ + p))) = cyclePos (rightsCount g) (g.length - rightsCount g) p := by
    intro gs₁ k g gs₂ e p hp
    obtain ⟨h1, h2, h3⟩ := hB k _ _ _ e
    rw [at_group e p hp, h1, h2, h3, Nat.add_sub_cancel_left]
  have size_eq : ∀ {gs₁ k g gs₂}, gs = gs₁ ++ (k, g) :: gs₂ → R k + L k = g.length := by
    intro gs₁ k g gs₂ e
    obtain ⟨h1, h2, h3⟩ := hB k _ _ _ e
    rw [h2, h3, size]
  have nlt : ∀ (g : List Ev) p, p < g.length → nextPos (rightsCount g) (g.length - rightsCount g) p < g.length := by
    intro g p hp
    have := nextPos_lt (R := rightsCount g) (L := g.length - rightsCount g) (p := p) (by rw [size]; exact hp)
    rwa [size] at this
  refine ⟨fun i => cyclePos (R (startAt h events i)) (L (startAt h events i)) (i - B (startAt h events i)),
    fun k => R k + L k, ?_, ?_, ?_, ?_, ?_, ?_, ?_, ?_⟩
  · unfold eventsToConnectivity; rw [← hgs, connectivityFrom_length, tot]
  · intro i hi
    obtain ⟨gs₁, k, g, gs₂, p, e, rfl, hp⟩ := group_of_index gs i (by omega)
    rw [step e p hp]
    have := nlt g p hp
    have := le_tot e
    omega
  · intro i hi
    obtain ⟨gs₁, k, g, gs₂, p, e, rfl, hp⟩ := group_of_index gs i (by omega)
    rw [step e p hp, at_group e _ (nlt g p hp), at_group e p hp]
  · intro i hi
    obtain ⟨gs₁, k, g, gs₂, p, e, rfl, hp⟩ := group_of_index gs i (by omega)
    rw [pos_eq e p hp, at_group e p hp, size_eq e]
    have := cyclePos_lt (R := rightsCount g) (L := g.length - rightsCount g) (p := p) (by rw [size]; exact hp)
    rwa [size] at this
  · intro i hi
    obtain ⟨gs₁, k, g, gs₂, p, e, rfl, hp⟩ := group_of_index gs i (by omega)
    rw [at_group e p hp, size_eq e]
    have := le_tot e
    omega
  · intro i hi
    obtain ⟨gs₁, k, g, gs₂, p, e, rfl, hp⟩ := group_of_index gs i (by omega)
    rw [step e p hp, pos_eq e _ (nlt g p hp), pos_eq e p hp, cyclePos_next (by rw [size]; exact hp), at_group e p hp,
      size_eq e, size]
  · intro i hi j hj hij
    obtain ⟨gs₁, k, g, gs₂, p, e, rfl, hp⟩ := group_of_index gs i (by omega)
    obtain ⟨gs₁', k', g', gs₂', q, e', rfl, hq⟩ := group_of_index gs j (by omega)
    rw [pos_eq e p hp, pos_eq e' q hq]
    rw [at_group e p hp, at_group e' q hq] at hij
    subst hij
    obtain ⟨rfl, rfl, rfl⟩ := unique_split (by rw [← e]; exact nd) (e.symm.trans e')
    intro hpos
    have := congrArg (cyclePos (rightsCount g) (g.length - rightsCount g)) hpos
    rw [cyclePos_invol (by rw [size]; exact hp), cyclePos_invol (by rw [size]; exact hq)] at this
    rw [this]
  · intro i hi j hj hij
    obtain ⟨gs₁, k, g, gs₂, p, e, rfl, hp⟩ := group_of_index gs i (by omega)
    obtain ⟨gs₁', k', g', gs₂', q, e', rfl, hq⟩ := group_of_index gs j (by omega)
    rw [pos_eq e p hp, pos_eq e' q hq]
    rw [at_group e p hp, at_group e' q hq] at hij
    subst hij
    obtain ⟨rfl, rfl, rfl⟩ := unique_split (by rw [← e]; exact nd) (e.symm.trans e')
    rw [side e p hp, side e q hq]
    unfold cyclePos
    split_ifs <;> omega

/-- Iteration of the linking. -/
theorem IsRotation.iter {conn : List ℕ} {key : ℕ → Point} {n : ℕ} {left : ℕ → Prop} {pos : ℕ → ℕ} {size : Point → ℕ}
    (h : IsRotation conn key n left pos size) {i : ℕ} (hi : i < n) (k : ℕ) :
    (fun i => conn.getD i 0)^[k] i < n ∧ key ((fun i => conn.getD i 0)^[k] i) = key i ∧
      pos ((fun i => conn.getD i 0)^[k] i) = (pos i + k) % size (key i) := by
  induction k with
  | zero =>
    rw [Function.iterate_zero, id_eq, Nat.add_zero, Nat.mod_eq_of_lt (h.pos_lt i hi)]
    exact ⟨hi, rfl, rfl⟩
  | succ k ih =>
    obtain ⟨h1, h2, h3⟩ := ih
    rw [Function.iterate_succ_apply']
    refine ⟨h.lt _ h1, (h.same _ h1).trans h2, ?_⟩
    rw [h.pos_next _ h1, h3, h2, Nat.mod_add_mod, Nat.add_assoc]

/-- Every element with the same key is reached. -/
theorem IsRotation.reach {conn : List ℕ} {key : ℕ → Point} {n : ℕ} {left : ℕ → Prop} {pos : ℕ → ℕ} {size : Point → ℕ}
    (h : IsRotation conn key n left pos size) {i x : ℕ} (hi : i < n) (hx : x < n) (hk : key x = key i) :
    ∃ k, 0 < k ∧ k ≤ size (key i) ∧ (fun i => conn.getD i 0)^[k] i = x := by
  have h1 := h.pos_lt i hi
  have h2 := h.pos_lt x hx
  rw [hk] at h2
  have key' : ∀ k, (pos i + k) % size (key i) = pos x → (fun i => conn.getD i 0)^[k] i = x := by
    intro k hm
    obtain ⟨l, e, p⟩ := h.iter hi k
    exact h.pos_inj _ l _ hx (e.trans hk.symm) (p.trans hm)
  by_cases hlt : pos i < pos x
  · refine ⟨pos x - pos i, by omega, by omega, key' _ ?_⟩
    rw [Nat.add_sub_cancel' hlt.le, Nat.mod_eq_of_lt h2]
  · refine ⟨size (key i) + pos x - pos i, by omega, by omega, key' _ ?_⟩
    rw [Nat.add_sub_cancel' (by omega), Nat.add_mod_left, Nat.mod_eq_of_lt h2]

theorem IsRotation.period {conn : List ℕ} {key : ℕ → Point} {n : ℕ} {left : ℕ → Prop} {pos : ℕ → ℕ} {size : Point → ℕ}
    (h : IsRotation conn key n left pos size) {i : ℕ} (hi : i < n) {k : ℕ} (k0 : 0 < k) (k1 : k ≤ size (key i)) :
    (fun i => conn.getD i 0)^[k] i = i ↔ k = size (key i) := by
  have h1 := h.pos_lt i hi
  obtain ⟨l, e, p⟩ := h.iter hi k
  constructor
  · intro hk
    rw [hk] at p
    by_contra hne
    by_cases hs : pos i + k < size (key i)
    · rw [Nat.mod_eq_of_lt hs] at p; omega
    · rw [Nat.mod_eq_sub_mod (by omega), Nat.mod_eq_of_lt (by omega)] at p; omega
  · rintro rfl
    refine h.pos_inj _ l _ hi e ?_
    rw [p, Nat.add_mod_right, Nat.mod_eq_of_lt h1]

theorem IsRotation.next_aux {conn : List ℕ} {key : ℕ → Point} {n : ℕ} {left : ℕ → Prop} {pos : ℕ → ℕ} {size : Point → ℕ}
    (h : IsRotation conn key n left pos size) (processed : ℕ → Bool) {i : ℕ} (hi : i < n) :
    ∀ fuel k, k < size (key i) → size (key i) ≤ k + fuel →
      (∀ m, 0 < m → m ≤ k → processed ((fun i => conn.getD i 0)^[m] i) = true) →
      (∃ m, 0 < m ∧ m ≤ size (key i) ∧
        nextEventId conn processed i fuel ((fun i => conn.getD i 0)^[k] i) = .ok (some ((fun i => conn.getD i 0)^[m] i)) ∧
        processed ((fun i => conn.getD i 0)^[m] i) = false ∧
        ∀ m', 0 < m' → m' < m → processed ((fun i => conn.getD i 0)^[m'] i) = true) ∨
      (nextEventId conn processed i fuel ((fun i => conn.getD i 0)^[k] i) = .ok none ∧
        ∀ m, 0 < m → m ≤ size (key i) → processed ((fun i => conn.getD i 0)^[m] i) = true) := by
  intro fuel
  induction fuel with
  | zero => intro k h1 h2; omega
  | succ fuel ih =>
    intro k h1 h2 hpr
    have e : conn.getD ((fun i => conn.getD i 0)^[k] i) 0 = (fun i => conn.getD i 0)^[k + 1] i := by
      rw [Function.iterate_succ_apply']
    simp only [nextEventId]
    rw [e]
    by_cases hp : processed ((fun i => conn.getD i 0)^[k + 1] i) = false
    · left
      refine ⟨k + 1, by omega, by omega, ?_, hp, fun m' h3 h4 => hpr m' h3 (by omega)⟩
      rw [if_pos (by rw [hp]; rfl)]
    · rw [Bool.not_eq_false] at hp
      have hpr' : ∀ m, 0 < m → m ≤ k + 1 → processed ((fun i => conn.getD i 0)^[m] i) = true := by
        intro m m0 m1
        rcases m1.eq_or_lt with rfl | m1
        · exact hp
        · exact hpr m m0 (by omega)
      rw [if_neg (by rw [hp]; simp)]
      by_cases hper : (fun i => conn.getD i 0)^[k + 1] i = i
      · rw [if_pos hper]
        have := (h.period hi (by omega) (by omega)).1 hper
        exact Or.inr ⟨rfl, fun m m0 m1 => hpr' m m0 (by omega)⟩
      · rw [if_neg hper]
        have : k + 1 ≠ size (key i) := fun e => hper ((h.period hi (by omega) (by omega)).2 e)
        exact ih (k + 1) (by omega) (by omega) hpr'

/-- What `_to_next_event_id` finds: the first element in the cycle which is not processed. -/
theorem IsRotation.next {conn : List ℕ} {key : ℕ → Point} {n : ℕ} {left : ℕ → Prop} {pos : ℕ → ℕ} {size : Point → ℕ}
    (h : IsRotation conn key n left pos size) (processed : ℕ → Bool) {i : ℕ} (hi : i < n) :
    (∃ j, nextEventId conn processed i n i = .ok (some j) ∧ j < n ∧ key j = key i ∧ processed j = false ∧
      (j = i → ∀ x < n, key x = key i → processed x = false → x = i) ∧
      ∀ x < n, key x = key i → processed x = false → x = i ∨ x = j ∨ (pos i < pos j ∧ pos j < pos x) ∨
        (pos j < pos x ∧ pos x < pos i) ∨ (pos x < pos i ∧ pos i < pos j)) ∨
    (nextEventId conn processed i n i = .ok none ∧ ∀ x < n, key x = key i → processed x = true) := by
  have hN := h.pos_lt i hi
  rcases h.next_aux processed hi n 0 (by omega) (by have := h.size_le i hi; omega) (fun m h1 h2 => by omega) with
    ⟨m, m0, m1, hm, hp, hb⟩ | ⟨h1, h2⟩
  · left
    obtain ⟨l, e, p⟩ := h.iter hi m
    refine ⟨_, hm, l, e, hp, ?_, ?_⟩
    · intro hmi x hx hk hpx
      have hmN := (h.period hi m0 m1).1 hmi
      obtain ⟨m', m0', m1', hm'⟩ := h.reach hi hx hk
      rcases m1'.eq_or_lt with h3 | h3
      · rw [← hm', h3, ← hmN]; exact hmi
      · have := hb m' m0' (by omega)
        rw [hm', hpx] at this
        exact absurd this (by simp)
    · intro x hx hk hpx
      obtain ⟨m', m0', m1', hm'⟩ := h.reach hi hx hk
      have hmm : m ≤ m' := by
        by_contra hn
        have := hb m' m0' (by omega)
        rw [hm', hpx] at this
        exact absurd this (by simp)
      rcases hmm.eq_or_lt with h3 | h3
      · right; left; rw [h3]; exact hm'.symm
      rcases m1'.eq_or_lt with h4 | h4
      · left; rw [← hm']; exact (h.period hi m0' m1').2 h4
      right; right
      obtain ⟨l', e', p'⟩ := h.iter hi m'
      rw [hm'] at p'
      by_cases c1 : pos i + m' < size (key i)
      · rw [Nat.mod_eq_of_lt c1] at p'
        rw [Nat.mod_eq_of_lt (by omega)] at p
        left; omega
      · rw [Nat.mod_eq_sub_mod (by omega), Nat.mod_eq_of_lt (by omega)] at p'
        by_cases c2 : pos i + m < size (key i)
        · rw [Nat.mod_eq_of_lt c2] at p
          right; right; omega
        · rw [Nat.mod_eq_sub_mod (by omega), Nat.mod_eq_of_lt (by omega)] at p
          right; left; omega
  · right
    refine ⟨h1, fun x hx hk => ?_⟩
    obtain ⟨m', m0', m1', hm'⟩ := h.reach hi hx hk
    rw [← hm']; exact h2 m' m0' m1'

end Clipping

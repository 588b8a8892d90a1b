import Verif.Lemmas.Shaped.Trace
import Verif.Lemmas.Plane.Nesting
import Verif.Lemmas.Region.Shrink

/-!
# The contours and the relations of the result
-/

namespace Clipping

open Sweep

/-- The relations of contours computed from the contours below: `ptr j` is the contour of the edge below the first
vertex of the contour `j`, and if this edge is an upper one. -/
structure RelOk (ptr : ℕ → Option (ℕ × Bool)) (r : Relations) (n : ℕ) : Prop where
  lenInternal : r.areInternal.length = n
  lenDepths : r.depths.length = n
  lenHoles : r.holes.length = n
  lenParents : r.parents.length = n
  lt : ∀ j < n, ∀ c f, ptr j = some (c, f) → c < j
  base : ∀ j < n, ptr j = none → r.areInternal.getD j false = false
  lower : ∀ j < n, ∀ c, ptr j = some (c, false) → r.areInternal.getD j false = !r.areInternal.getD c false
  upper : ∀ j < n, ∀ c, ptr j = some (c, true) → r.areInternal.getD j false = r.areInternal.getD c false
  external : ∀ j < n, r.areInternal.getD j false = false → r.parents.getD j none = none ∧ r.depths.getD j 0 = 0
  internal : ∀ j < n, r.areInternal.getD j false = true → r.depths.getD j 0 = 1 ∧
    ∃ p < j, r.parents.getD j none = some p ∧ r.areInternal.getD p false = false ∧
      ∀ c f, ptr j = some (c, f) → (f = true → r.parents.getD c none = some p) ∧ (f = false → c = p)
  holes : ∀ p < n, r.holes.getD p [] = (List.range n).filter fun j => decide (r.parents.getD j none = some p)

theorem getD_snoc {β : Type} {l : List β} {x d : β} {n i : ℕ} (h : l.length = n) :
    (l ++ [x]).getD i d = if i = n then x else l.getD i d := by
  subst h
  split
  · rename_i hi; subst hi
    rw [List.getD_append_right _ _ _ _ (le_refl _)]; simp
  · rename_i hi
    by_cases hl : i < l.length
    · rw [List.getD_append _ _ _ _ hl]
    · rw [List.getD_append_right _ _ _ _ (by omega), List.getD_eq_default _ _ (by simp; omega),
        List.getD_eq_default _ _ (by omega)]

theorem appendHole_length (holes : List (List ℕ)) (i j : ℕ) : (appendHole holes i j).length = holes.length := by
  unfold appendHole; simp

theorem appendHole_getD {holes : List (List ℕ)} {i j p : ℕ} (hi : i < holes.length) :
    (appendHole holes i j).getD p [] = if p = i then holes.getD p [] ++ [j] else holes.getD p [] := by
  unfold appendHole
  rw [List.getD_eq_getElem?_getD, List.getD_eq_getElem?_getD, List.getElem?_modify]
  by_cases hp : p = i
  · subst hp
    rw [if_pos rfl, List.getElem?_eq_getElem hi]; simp
  · rw [if_neg hp]
    simp [Ne.symm hp]

theorem RelOk.nil (ptr : ℕ → Option (ℕ × Bool)) : RelOk ptr ⟨[], [], [], []⟩ 0 := by
  constructor <;> simp

theorem RelOk.congr {ptr ptr' : ℕ → Option (ℕ × Bool)} {r : Relations} {n : ℕ} (R : RelOk ptr r n)
    (h : ∀ j < n, ptr j = ptr' j) : RelOk ptr' r n where
  lenInternal := R.lenInternal
  lenDepths := R.lenDepths
  lenHoles := R.lenHoles
  lenParents := R.lenParents
  lt j hj := by rw [← h j hj]; exact R.lt j hj
  base j hj := by rw [← h j hj]; exact R.base j hj
  lower j hj := by rw [← h j hj]; exact R.lower j hj
  upper j hj := by rw [← h j hj]; exact R.upper j hj
  external := R.external
  internal j hj := by rw [← h j hj]; exact R.internal j hj
  holes := R.holes

/-- a contour which is not a hole -/
theorem RelOk.push_external {ptr : ℕ → Option (ℕ × Bool)} {r : Relations} {n : ℕ} (R : RelOk ptr r n)
    (hlt : ∀ c f, ptr n = some (c, f) → c < n ∧ (f = true ↔ r.areInternal.getD c false = false)) :
    RelOk ptr (r.push false 0 none) n.succ := by
  have gi : ∀ i, (r.push false 0 none).areInternal.getD i false = if i = n then false else r.areInternal.getD i false :=
    fun i => getD_snoc R.lenInternal
  have gd : ∀ i, (r.push false 0 none).depths.getD i 0 = if i = n then 0 else r.depths.getD i 0 :=
    fun i => getD_snoc R.lenDepths
  have gp : ∀ i, (r.push false 0 none).parents.getD i none = if i = n then none else r.parents.getD i none :=
    fun i => getD_snoc R.lenParents
  have gh : ∀ i, (r.push false 0 none).holes.getD i [] = if i = n then [] else r.holes.getD i [] :=
    fun i => getD_snoc R.lenHoles
  refine ⟨?_, ?_, ?_, ?_, ?_, ?_, ?_, ?_, ?_, ?_, ?_⟩
  · simp [Relations.push, R.lenInternal]
  · simp [Relations.push, R.lenDepths]
  · simp [Relations.push, R.lenHoles]
  · simp [Relations.push, R.lenParents]
  · intro j hj c f hp
    by_cases e : j = n
    · subst e; exact (hlt c f hp).1
    · exact R.lt j (by omega) c f hp
  · intro j hj hp
    rw [gi]
    split
    · rfl
    · exact R.base j (by omega) hp
  · intro j hj c hp
    rw [gi, gi]
    by_cases e : j = n
    · subst e
      obtain ⟨h1, h2⟩ := hlt c _ hp
      rw [if_pos rfl, if_neg (by omega)]
      have : ¬ r.areInternal.getD c false = false := fun h => by have := h2.2 h; cases this
      simpa using this
    · have := R.lt j (by omega) c _ hp
      rw [if_neg e, if_neg (by omega)]; exact R.lower j (by omega) c hp
  · intro j hj c hp
    rw [gi, gi]
    by_cases e : j = n
    · subst e
      obtain ⟨h1, h2⟩ := hlt c _ hp
      rw [if_pos rfl, if_neg (by omega)]
      exact (h2.1 rfl).symm
    · have := R.lt j (by omega) c _ hp
      rw [if_neg e, if_neg (by omega)]; exact R.upper j (by omega) c hp
  · intro j hj hi
    rw [gi] at hi
    rw [gp, gd]
    by_cases e : j = n
    · rw [if_pos e, if_pos e]; exact ⟨rfl, rfl⟩
    · rw [if_neg e] at hi
      rw [if_neg e, if_neg e]; exact R.external j (by omega) hi
  · intro j hj hi
    rw [gi] at hi
    by_cases e : j = n
    · rw [if_pos e] at hi; cases hi
    · rw [if_neg e] at hi
      obtain ⟨h1, p, h2, h3, h4, h5⟩ := R.internal j (by omega) hi
      rw [gd, if_neg e]
      refine ⟨h1, p, h2, by rw [gp, if_neg e]; exact h3, by rw [gi, if_neg (by omega)]; exact h4, ?_⟩
      intro c f hp
      have := R.lt j (by omega) c _ hp
      rw [gp, if_neg (by omega)]
      exact h5 c f hp
  · intro p hp
    rw [gh, List.range_succ, List.filter_append]
    have e1 : (List.range n).filter (fun j => decide ((r.push false 0 none).parents.getD j none = some p)) =
        (List.range n).filter fun j => decide (r.parents.getD j none = some p) := by
      apply List.filter_congr
      intro j hj
      rw [List.mem_range] at hj
      rw [gp, if_neg (by omega)]
    have e2 : [n].filter (fun j => decide ((r.push false 0 none).parents.getD j none = some p)) = [] := by
      rw [List.filter_cons, gp, if_pos rfl]; simp
    rw [e1, e2, List.append_nil]
    by_cases e : p = n
    · rw [if_pos e, eq_comm, List.filter_eq_nil_iff]
      intro j hj
      rw [List.mem_range] at hj
      rw [decide_eq_true_iff]
      intro hpar
      by_cases hi : r.areInternal.getD j false = true
      · obtain ⟨-, q, h2, h3, -⟩ := R.internal j hj hi
        rw [h3] at hpar
        have := Option.some.inj hpar
        omega
      · rw [(R.external j hj (by simpa using hi)).1] at hpar; cases hpar
    · rw [if_neg e]; exact R.holes p (by omega)

/-- a hole -/
theorem RelOk.push_internal {ptr : ℕ → Option (ℕ × Bool)} {r : Relations} {n p : ℕ} (R : RelOk ptr r n) (hp : p < n)
    (hpi : r.areInternal.getD p false = false)
    (hptr : ptr n = some (p, false) ∨ ∃ c < n, ptr n = some (c, true) ∧ r.areInternal.getD c false = true ∧
      r.parents.getD c none = some p) :
    RelOk ptr ({ r with holes := appendHole r.holes p n }.push true 1 (some p)) n.succ := by
  set r' := { r with holes := appendHole r.holes p n }.push true 1 (some p) with hr'
  have gi : ∀ i, r'.areInternal.getD i false = if i = n then true else r.areInternal.getD i false :=
    fun i => getD_snoc R.lenInternal
  have gd : ∀ i, r'.depths.getD i 0 = if i = n then 1 else r.depths.getD i 0 :=
    fun i => getD_snoc R.lenDepths
  have gp : ∀ i, r'.parents.getD i none = if i = n then some p else r.parents.getD i none :=
    fun i => getD_snoc R.lenParents
  have gh : ∀ i, r'.holes.getD i [] = if i = n then [] else if i = p then r.holes.getD i [] ++ [n] else r.holes.getD i [] := by
    intro i
    have : r'.holes = appendHole r.holes p n ++ [[]] := rfl
    rw [this, getD_snoc (n := n) (by rw [appendHole_length, R.lenHoles]), appendHole_getD (by rw [R.lenHoles]; exact hp)]
  have hlt : ∀ c f, ptr n = some (c, f) → c < n := by
    intro c f h
    rcases hptr with h1 | ⟨c', h1, h2, -⟩
    · rw [h1] at h; simp only [Option.some.injEq, Prod.mk.injEq] at h; omega
    · rw [h2] at h; simp only [Option.some.injEq, Prod.mk.injEq] at h; omega
  refine ⟨?_, ?_, ?_, ?_, ?_, ?_, ?_, ?_, ?_, ?_, ?_⟩
  · simp [hr', Relations.push, R.lenInternal]
  · simp [hr', Relations.push, R.lenDepths]
  · simp [hr', Relations.push, R.lenHoles, appendHole_length]
  · simp [hr', Relations.push, R.lenParents]
  · intro j hj c f hcf
    by_cases e : j = n
    · exact e ▸ hlt c f (e ▸ hcf)
    · exact R.lt j (by omega) c f hcf
  · intro j hj hp
    rw [gi]
    split
    · rename_i e
      rw [e] at hp
      rcases hptr with h1 | ⟨c', h1, h2, -⟩
      · rw [h1] at hp; cases hp
      · rw [h2] at hp; cases hp
    · exact R.base j (by omega) hp
  · intro j hj c hcp
    rw [gi, gi]
    by_cases e : j = n
    · subst e
      have := hlt c _ hcp
      rw [if_pos rfl, if_neg (by omega)]
      rcases hptr with h1 | ⟨c', h1, h2, h3, -⟩
      · rw [h1] at hcp
        simp only [Option.some.injEq, Prod.mk.injEq] at hcp
        rw [← hcp.1, hpi]; rfl
      · rw [h2] at hcp; simp at hcp
    · have := R.lt j (by omega) c _ hcp
      rw [if_neg e, if_neg (by omega)]; exact R.lower j (by omega) c hcp
  · intro j hj c hcp
    rw [gi, gi]
    by_cases e : j = n
    · subst e
      have := hlt c _ hcp
      rw [if_pos rfl, if_neg (by omega)]
      rcases hptr with h1 | ⟨c', h1, h2, h3, -⟩
      · rw [h1] at hcp; simp at hcp
      · rw [h2] at hcp
        simp only [Option.some.injEq, Prod.mk.injEq] at hcp
        rw [← hcp.1, h3]
    · have := R.lt j (by omega) c _ hcp
      rw [if_neg e, if_neg (by omega)]; exact R.upper j (by omega) c hcp
  · intro j hj hi
    rw [gi] at hi
    rw [gp, gd]
    by_cases e : j = n
    · rw [if_pos e] at hi; cases hi
    · rw [if_neg e] at hi
      rw [if_neg e, if_neg e]; exact R.external j (by omega) hi
  · intro j hj hi
    rw [gi] at hi
    by_cases e : j = n
    · subst e
      refine ⟨by rw [gd, if_pos rfl], p, hp, by rw [gp, if_pos rfl], by rw [gi, if_neg (by omega)]; exact hpi, ?_⟩
      intro c f hcf
      have := hlt c f hcf
      rw [gp, if_neg (by omega)]
      rcases hptr with h1 | ⟨c', h1, h2, h3, h4⟩
      · rw [h1] at hcf
        simp only [Option.some.injEq, Prod.mk.injEq] at hcf
        exact ⟨fun h => (Bool.noConfusion (hcf.2.trans h)), fun _ => hcf.1.symm⟩
      · rw [h2] at hcf
        simp only [Option.some.injEq, Prod.mk.injEq] at hcf
        exact ⟨fun _ => by rw [← hcf.1]; exact h4, fun h => (Bool.noConfusion (hcf.2.trans h))⟩
    · rw [if_neg e] at hi
      obtain ⟨h1, p, h2, h3, h4, h5⟩ := R.internal j (by omega) hi
      rw [gd, if_neg e]
      refine ⟨h1, p, h2, by rw [gp, if_neg e]; exact h3, by rw [gi, if_neg (by omega)]; exact h4, ?_⟩
      intro c f hp
      have := R.lt j (by omega) c _ hp
      rw [gp, if_neg (by omega)]
      exact h5 c f hp
  · intro q hq
    rw [gh, List.range_succ, List.filter_append]
    have e1 : (List.range n).filter (fun j => decide (r'.parents.getD j none = some q)) =
        (List.range n).filter fun j => decide (r.parents.getD j none = some q) := by
      apply List.filter_congr
      intro j hj
      rw [List.mem_range] at hj
      rw [gp, if_neg (by omega)]
    have e2 : [n].filter (fun j => decide (r'.parents.getD j none = some q)) = if q = p then [n] else [] := by
      have : r'.parents.getD n none = some p := by rw [gp, if_pos rfl]
      rw [List.filter_cons, this]
      by_cases e : q = p
      · simp [e]
      · simp [e, Ne.symm e]
    rw [e1, e2]
    by_cases e : q = n
    · rw [if_pos e, if_neg (by omega), List.append_nil, eq_comm, List.filter_eq_nil_iff]
      intro j hj
      rw [List.mem_range] at hj
      rw [decide_eq_true_iff]
      intro hpar
      by_cases hi : r.areInternal.getD j false = true
      · obtain ⟨-, q, h2, h3, -⟩ := R.internal j hj hi
        rw [h3] at hpar
        have := Option.some.inj hpar
        omega
      · rw [(R.external j hj (by simpa using hi)).1] at hpar; cases hpar
    · rw [if_neg e, R.holes q (by omega)]
      by_cases e' : q = p
      · rw [if_pos e', if_pos e']
      · rw [if_neg e', if_neg e', List.append_nil]

/-- `_compute_relations` -/
theorem computeRelations_ok {h : Heap ShapedData} {m : Marks} {i n : ℕ} {r : Relations} {ptr : ℕ → Option (ℕ × Bool)}
    (R : RelOk ptr r n) (hb : ∀ b, (h.lefts i).data.below = some b → ∃ c < n, m.contourId b = some c)
    (hptr : ptr n = (h.lefts i).data.below.bind fun b => (m.contourId b).map fun c => (c, m.fromInToOut b)) :
    ∃ r', computeRelations h m i n r = .ok r' ∧ RelOk ptr r' (n + 1) := by
  unfold computeRelations
  cases hbi : (h.lefts i).data.below with
  | none =>
    rw [hbi] at hptr
    refine ⟨_, rfl, R.push_external ?_⟩
    intro c f hp
    rw [hptr] at hp; cases hp
  | some b =>
    obtain ⟨c, hc, hcb⟩ := hb b hbi
    rw [hbi] at hptr
    dsimp only
    rw [hcb]
    dsimp only
    simp only [Option.bind_some, hcb, Option.map_some] at hptr
    cases hf : m.fromInToOut b with
    | false =>
      rw [hf] at hptr
      cases hi : r.areInternal.getD c false with
      | false =>
        simp only [Bool.not_false, if_true]
        have hd := (R.external c hc hi).2
        refine ⟨_, rfl, ?_⟩
        rw [hd]
        exact R.push_internal hc hi (Or.inl hptr)
      | true =>
        simp only [Bool.not_false, Bool.not_true, Bool.false_eq_true, if_true, if_false]
        refine ⟨_, rfl, R.push_external ?_⟩
        intro c' f hp
        rw [hptr] at hp
        simp only [Option.some.injEq, Prod.mk.injEq] at hp
        rw [← hp.1, ← hp.2]
        exact ⟨hc, by rw [hi]; simp⟩
    | true =>
      rw [hf] at hptr
      cases hi : r.areInternal.getD c false with
      | false =>
        simp only [Bool.not_true, Bool.false_eq_true, if_false]
        refine ⟨_, rfl, R.push_external ?_⟩
        intro c' f hp
        rw [hptr] at hp
        simp only [Option.some.injEq, Prod.mk.injEq] at hp
        rw [← hp.1, ← hp.2]
        exact ⟨hc, by rw [hi]; simp⟩
      | true =>
        obtain ⟨hd, p, hp, hpar, hpi, -⟩ := R.internal c hc hi
        simp only [Bool.not_true, Bool.false_eq_true, if_false, if_true, hpar, hd]
        exact ⟨_, rfl, R.push_internal (by omega) hpi (Or.inr ⟨c, hc, hptr, hi, hpar⟩)⟩

end Clipping

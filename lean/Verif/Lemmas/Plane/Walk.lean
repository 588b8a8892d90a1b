import Verif.Lemmas.Plane.Way
import Mathlib.Logic.Function.Iterate

/-!
# Walks along the boundary of a face
-/

namespace Clipping

namespace Darts

variable {D : Darts}

/-- A map which leads along the boundaries of faces -/
structure Steps (D : Darts) (F : Finset ℕ) (nx : ℕ → ℕ) : Prop where
  closed : D.Closed F
  even : ∀ q, Even (degree (D.edges F) q)
  next : ∀ i ∈ F, D.Next F (D.opp i) (nx i)

namespace Steps

variable {F : Finset ℕ} {nx : ℕ → ℕ}

theorem mem (S : D.Steps F nx) {i : ℕ} (hi : i ∈ F) (k : ℕ) : nx^[k] i ∈ F := by
  induction k with
  | zero => exact hi
  | succ k ih => rw [Function.iterate_succ_apply']; exact (S.next _ ih).mem

theorem key (S : D.Steps F nx) {i : ℕ} (hi : i ∈ F) : D.key (nx i) = D.key (D.opp i) := (S.next i hi).key

theorem inj (S : D.Steps F nx) {i j : ℕ} (hi : i ∈ F) (hj : j ∈ F) (h : nx i = nx j) : i = j := by
  have h1 := S.next i hi
  have h2 := S.next j hj
  rw [← h] at h2
  exact opp_inj (S.closed.lt i hi) (S.closed.lt j hj) (Next.inj S.closed (S.closed.opp i hi) (S.closed.opp j hj) h1 h2)

theorem face (S : D.Steps F nx) {i : ℕ} (hi : i ∈ F) (k : ℕ) : D.SameFace F i (nx^[k] i) := by
  induction k with
  | zero => exact S.closed.sameFace_refl (S.closed.lt i hi)
  | succ k ih =>
    rw [Function.iterate_succ_apply']
    have hk := S.mem hi k
    exact S.closed.sameFace_trans (S.closed.lt _ hk) ih (S.closed.step hk (S.next _ hk))

theorem face' (S : D.Steps F nx) {i : ℕ} (hi : i ∈ F) (j k : ℕ) : D.SameFace F (nx^[j] i) (nx^[k] i) :=
  S.closed.sameFace_trans (S.closed.lt _ hi) (S.face hi j).symm (S.face hi k)

/-- The walk does not come back on an edge in the other direction. -/
theorem no_opp (S : D.Steps F nx) {i : ℕ} (hi : i ∈ F) (j k : ℕ) : D.opp (nx^[j] i) ≠ nx^[k] i := by
  intro h
  have := S.face' hi j k
  rw [← h] at this
  exact S.closed.not_opp S.even (S.mem hi j) this

theorem iter_inj (S : D.Steps F nx) {i : ℕ} (hi : i ∈ F) {j k : ℕ} (h : nx^[j] i = nx^[j + k] i) : i = nx^[k] i := by
  induction j with
  | zero => rw [Nat.zero_add] at h; exact h
  | succ j ih =>
    rw [Nat.succ_add, Function.iterate_succ_apply', Function.iterate_succ_apply'] at h
    exact ih (S.inj (S.mem hi _) (S.mem hi _) h)

/-- a part of the walk -/
theorem way (S : D.Steps F nx) {i : ℕ} (hi : i ∈ F) (j n : ℕ) :
    D.IsWay (D.key (D.opp (nx^[j] i))) ((List.range n).map fun t => nx^[j + 1 + t] i) (D.key (D.opp (nx^[j + n] i))) := by
  induction n with
  | zero => rfl
  | succ n ih =>
    rw [List.range_succ, List.map_append]
    refine isWay_snoc.2 ⟨?_, ?_⟩
    · dsimp only
      have e : j + 1 + n = (j + n) + 1 := by omega
      rw [e, Function.iterate_succ_apply', S.key (S.mem hi _)]
      exact ih
    · dsimp only
      rw [show j + 1 + n = j + (n + 1) by omega]

end Steps

/-- A vertex which was cut off as a part of a loop -/
def Stale (D : Darts) (nx : ℕ → ℕ) (d k : ℕ) (w : Point) : Prop :=
  ∃ L j, j ≤ k ∧ D.Loop L ∧ D.key (D.opp (nx^[j] d)) ∈ L.map D.key ∧ w ∈ L.map D.key ∧ w ≠ D.key (D.opp (nx^[j] d)) ∧
    ∀ i ∈ L, ∃ t ≤ j, i = nx^[t] d

/-- The state of the tracing of a contour after `k` steps from the edge `d` -/
structure Walk (D : Darts) (nx : ℕ → ℕ) (d : ℕ) (R : List ℕ) (pos : Point → Option ℕ) (k : ℕ) : Prop where
  head : R.head? = some d
  last : R.getLast? = some (nx^[k] d)
  way : D.IsWay (D.key d) R (D.key (D.opp (nx^[k] d)))
  keys : (R.map D.key).Nodup
  past : ∀ i ∈ R, ∃ j ≤ k, i = nx^[j] d
  away : ∀ j, 0 < j → j ≤ k → D.key (nx^[j] d) ≠ D.key d
  found : ∀ w p, pos w = some p → (∃ hp : p < R.length, D.key R[p] = w) ∨ Stale D nx d k w
  live : ∀ p (hp : p < R.length), pos (D.key R[p]) = some p

namespace Walk

variable {F : Finset ℕ} {nx : ℕ → ℕ} {d k : ℕ} {R : List ℕ} {pos : Point → Option ℕ}

theorem init : D.Walk nx d [d] (Function.update (fun _ => none) (D.key d) (some 0)) 0 where
  head := rfl
  last := rfl
  way := ⟨rfl, rfl⟩
  keys := by simp
  past i hi := ⟨0, le_refl _, by simpa using hi⟩
  away j h1 h2 := by omega
  found w p h := by
    by_cases hw : w = D.key d
    · subst hw
      rw [Function.update_self] at h
      cases h
      exact Or.inl ⟨by simp, rfl⟩
    · rw [Function.update_of_ne hw] at h
      cases h
  live p hp := by
    have : p = 0 := by simpa using hp
    subst this
    exact Function.update_self _ _ _

theorem distinct (W : D.Walk nx d R pos k) (S : D.Steps F nx) (hd : d ∈ F) {i j : ℕ} (hij : i < j) (hj : j ≤ k) :
    nx^[i] d ≠ nx^[j] d := by
  intro h
  have : j = i + (j - i) := by omega
  rw [this] at h
  have := S.iter_inj hd h
  exact W.away (j - i) (by omega) (by omega) (by rw [← this])

theorem bound (W : D.Walk nx d R pos k) (S : D.Steps F nx) (hd : d ∈ F) : k < F.card := by
  classical
  have : ((List.range (k + 1)).map fun j => nx^[j] d).toFinset ⊆ F := by
    intro x hx
    rw [List.mem_toFinset, List.mem_map] at hx
    obtain ⟨j, -, rfl⟩ := hx
    exact S.mem hd j
  have hc := Finset.card_le_card this
  rw [List.toFinset_card_of_nodup, List.length_map, List.length_range] at hc
  · omega
  · refine (List.nodup_range).map_on ?_
    intro i hi j hj h
    rw [List.mem_range] at hi hj
    by_contra hne
    rcases Nat.lt_or_gt_of_ne hne with h1 | h1
    · exact W.distinct S hd h1 (by omega) h
    · exact W.distinct S hd h1 (by omega) h.symm

theorem mem (W : D.Walk nx d R pos k) (S : D.Steps F nx) (hd : d ∈ F) {i : ℕ} (hi : i ∈ R) : i ∈ F := by
  obtain ⟨j, -, rfl⟩ := W.past i hi
  exact S.mem hd j

theorem ne_nil (W : D.Walk nx d R pos k) : R ≠ [] := by
  intro h
  have := W.head
  rw [h] at this
  cases this

/-- The edges from a vertex on form a loop when the walk arrives at it. -/
theorem loop (W : D.Walk nx d R pos k) (S : D.Steps F nx) (hd : d ∈ F) {p : ℕ} (hp : p < R.length)
    (hk : D.key R[p] = D.key (D.opp (nx^[k] d))) : D.Loop (R.drop p) where
  lt i hi := S.closed.lt i (W.mem S hd (List.mem_of_mem_drop hi))
  ne h := by rw [List.drop_eq_nil_iff] at h; omega
  way := by
    have hw := W.way
    rw [← List.take_append_drop p R] at hw
    obtain ⟨b, -, h2⟩ := isWay_append.1 hw
    refine ⟨b, ?_⟩
    rw [← hk] at h2
    rw [List.drop_eq_getElem_cons hp] at h2 ⊢
    have : D.key R[p] = b := h2.1
    rw [this] at h2
    exact h2
  keys := W.keys.sublist ((List.drop_sublist p R).map _)
  opp i hi ho := by
    obtain ⟨j, -, rfl⟩ := W.past i (List.mem_of_mem_drop hi)
    obtain ⟨j', -, h⟩ := W.past _ (List.mem_of_mem_drop ho)
    exact S.no_opp hd j j' h

/-- The walk does not arrive at a vertex which was cut off. -/
theorem not_stale (W : D.Walk nx d R pos k) (S : D.Steps F nx) (hd : d ∈ F) :
    ¬ Stale D nx d k (D.key (D.opp (nx^[k] d))) := by
  rintro ⟨L, j, hj, hL, hv, hw, hne, past⟩
  have memL : ∀ i ∈ L, i ∈ F := by
    intro i hi
    obtain ⟨t, -, rfl⟩ := past i hi
    exact S.mem hd t
  have memQ : ∀ i ∈ (List.range (k - j)).map (fun t => nx^[j + 1 + t] d), ∃ t, j < t ∧ t ≤ k ∧ i = nx^[t] d := by
    intro i hi
    obtain ⟨t, ht, rfl⟩ := List.mem_map.1 hi
    rw [List.mem_range] at ht
    exact ⟨j + 1 + t, by omega, by omega, rfl⟩
  have hway := S.way hd j (k - j)
  rw [Nat.add_sub_cancel' hj] at hway
  have dis : ∀ i ∈ (List.range (k - j)).map (fun t => nx^[j + 1 + t] d), i ∉ L := by
    intro i hi hiL
    obtain ⟨t, h1, h2, rfl⟩ := memQ i hi
    obtain ⟨t', h3, h4⟩ := past _ hiL
    exact W.distinct S hd (i := t') (j := t) (by omega) h2 h4.symm
  have oppL : ∀ i ∈ (List.range (k - j)).map (fun t => nx^[j + 1 + t] d), D.opp i ∉ L := by
    intro i hi hiL
    obtain ⟨t, h1, h2, rfl⟩ := memQ i hi
    obtain ⟨t', h3, h4⟩ := past _ hiL
    exact S.no_opp hd _ _ h4
  refine no_theta S.closed hL memL (Q := (List.range (k - j)).map fun t => nx^[j + 1 + t] d) ?_ ?_ ?_ dis ?_ oppL hv hw
    hne hway ?_
  · intro i hi
    obtain ⟨t, -, -, rfl⟩ := memQ i hi
    exact S.mem hd t
  · intro i hi i' hi'
    obtain ⟨t, -, rfl⟩ := past i hi
    obtain ⟨t', -, rfl⟩ := past i' hi'
    exact S.face' hd t t'
  · refine (List.nodup_range).map_on ?_
    intro x hx y hy h
    rw [List.mem_range] at hx hy
    by_contra hne
    rcases Nat.lt_or_gt_of_ne hne with h1 | h1
    · exact W.distinct S hd (i := j + 1 + x) (j := j + 1 + y) (by omega) (by omega) h
    · exact W.distinct S hd (i := j + 1 + y) (j := j + 1 + x) (by omega) (by omega) h.symm
  · intro i hi ho
    obtain ⟨t, -, -, rfl⟩ := memQ i hi
    obtain ⟨t', -, -, h⟩ := memQ _ ho
    exact S.no_opp hd t t' h
  · rintro i hi q hq m ⟨g, hg, hm⟩ off
    obtain ⟨x, hx, rfl⟩ := List.mem_map.1 hg
    have d1 := dis x hx
    have d2 := oppL x hx
    obtain ⟨t, -, -, rfl⟩ := memQ x hx
    obtain ⟨t', -, rfl⟩ := past i hi
    have hxF := S.mem hd t
    obtain ⟨y, hy⟩ := S.closed.exists_left (S.closed.lt _ hxF)
    have l1 := side_of_edge S.closed memL hxF d1 d2 hm off hy
    have l2 := (S.face' hd t t' y q hy hq).mono (E' := L.map D.seg) (by
      rintro z ⟨g, hg, hz⟩
      obtain ⟨i, hi, rfl⟩ := List.mem_map.1 hg
      exact S.closed.mem_pts.2 ⟨i, memL i hi, hz⟩)
    exact (l1.trans l2).inside_iff hL.proper hL.even

theorem Stale.mono {w : Point} (h : Stale D nx d k w) : Stale D nx d (k + 1) w := by
  obtain ⟨L, j, hj, rest⟩ := h
  exact ⟨L, j, by omega, rest⟩

/-- The walk arrives at a new vertex. -/
theorem extend (W : D.Walk nx d R pos k) (S : D.Steps F nx) (hd : d ∈ F)
    (hne : D.key (D.opp (nx^[k] d)) ≠ D.key d) (hpos : pos (D.key (D.opp (nx^[k] d))) = none) :
    D.Walk nx d (R ++ [nx (nx^[k] d)])
      (Function.update pos (D.key (D.opp (nx^[k] d))) (some R.length)) (k + 1) := by
  have hkey := S.key (S.mem hd k)
  have fresh : ∀ p (hp : p < R.length), D.key R[p] ≠ D.key (D.opp (nx^[k] d)) := by
    intro p hp h
    have := W.live p hp
    rw [h, hpos] at this
    cases this
  refine ⟨?_, ?_, ?_, ?_, ?_, ?_, ?_, ?_⟩
  · rw [List.head?_append_of_ne_nil _ W.ne_nil]; exact W.head
  · rw [List.getLast?_append, Function.iterate_succ_apply']; rfl
  · rw [Function.iterate_succ_apply']
    exact isWay_snoc.2 ⟨by rw [hkey]; exact W.way, rfl⟩
  · rw [List.map_append, List.map_cons, List.map_nil, List.nodup_append', hkey]
    refine ⟨W.keys, by simp, ?_⟩
    intro w hw hw'
    rw [List.mem_singleton] at hw'
    subst hw'
    obtain ⟨i, hi, h⟩ := List.mem_map.1 hw
    obtain ⟨p, hp, rfl⟩ := List.getElem_of_mem hi
    exact fresh p hp h
  · intro i hi
    rcases List.mem_append.1 hi with hi | hi
    · obtain ⟨j, hj, h⟩ := W.past i hi
      exact ⟨j, by omega, h⟩
    · rw [List.mem_singleton] at hi
      exact ⟨k + 1, le_refl _, by rw [hi, Function.iterate_succ_apply']⟩
  · intro j h1 h2
    rcases h2.eq_or_lt with rfl | h2
    · rw [Function.iterate_succ_apply', hkey]; exact hne
    · exact W.away j h1 (by omega)
  · intro w p h
    by_cases hw : w = D.key (D.opp (nx^[k] d))
    · subst hw
      rw [Function.update_self] at h
      cases h
      refine Or.inl ⟨by simp, ?_⟩
      rw [List.getElem_concat_length rfl, hkey]
    · rw [Function.update_of_ne hw] at h
      rcases W.found w p h with ⟨hp, h1⟩ | h1
      · refine Or.inl ⟨by rw [List.length_append]; omega, ?_⟩
        rw [List.getElem_append_left hp]; exact h1
      · exact Or.inr (Stale.mono h1)
  · intro p hp
    rw [List.length_append, List.length_singleton] at hp
    by_cases h : p < R.length
    · rw [List.getElem_append_left h, Function.update_of_ne (fresh p h)]
      exact W.live p h
    · have : p = R.length := by omega
      subst this
      rw [List.getElem_concat_length rfl, hkey, Function.update_self]

/-- The walk arrives at an old vertex. -/
theorem cut (W : D.Walk nx d R pos k) (S : D.Steps F nx) (hd : d ∈ F)
    (hne : D.key (D.opp (nx^[k] d)) ≠ D.key d) {p : ℕ} (hpos : pos (D.key (D.opp (nx^[k] d))) = some p) :
    0 < p ∧ D.Walk nx d (R.take p ++ [nx (nx^[k] d)]) pos (k + 1) := by
  have hkey := S.key (S.mem hd k)
  obtain ⟨hp, hk⟩ := (W.found _ p hpos).resolve_right (W.not_stale S hd)
  have p0 : 0 < p := by
    rcases Nat.eq_zero_or_pos p with rfl | h
    · exfalso
      have := W.head
      rw [List.head?_eq_getElem?, List.getElem?_eq_getElem hp] at this
      rw [Option.some.inj this] at hk
      exact hne hk.symm
    · exact h
  have hloop := W.loop S hd hp hk
  have len : (R.take p).length = p := by rw [List.length_take]; omega
  have keyInj : ∀ a b (ha : a < R.length) (hb : b < R.length), D.key R[a] = D.key R[b] → a = b := by
    intro a b ha hb h
    have := (W.keys.getElem_inj_iff (i := a) (j := b) (hi := by simpa) (hj := by simpa)).1 (by simpa using h)
    exact this
  refine ⟨p0, ?_, ?_, ?_, ?_, ?_, ?_, ?_, ?_⟩
  · rw [List.head?_append_of_ne_nil _ (by rw [← List.length_pos_iff, len]; exact p0), List.head?_take, if_neg (by omega)]
    exact W.head
  · rw [List.getLast?_append, Function.iterate_succ_apply']; rfl
  · rw [Function.iterate_succ_apply']
    refine isWay_snoc.2 ⟨?_, rfl⟩
    have hw := W.way
    rw [← List.take_append_drop p R] at hw
    obtain ⟨b, h1, h2⟩ := isWay_append.1 hw
    rw [List.drop_eq_getElem_cons hp] at h2
    have : D.key R[p] = b := h2.1
    rw [hkey, ← hk, this]
    exact h1
  · rw [List.map_append, List.map_cons, List.map_nil, List.nodup_append', hkey]
    refine ⟨W.keys.sublist ((List.take_sublist p R).map _), by simp, ?_⟩
    intro w hw hw'
    rw [List.mem_singleton] at hw'
    subst hw'
    obtain ⟨i, hi, h⟩ := List.mem_map.1 hw
    obtain ⟨a, ha, rfl⟩ := List.getElem_of_mem hi
    rw [len] at ha
    rw [List.getElem_take, ← hk] at h
    have := keyInj a p (by omega) hp h
    omega
  · intro i hi
    rcases List.mem_append.1 hi with hi | hi
    · obtain ⟨j, hj, h⟩ := W.past i (List.mem_of_mem_take hi)
      exact ⟨j, by omega, h⟩
    · rw [List.mem_singleton] at hi
      exact ⟨k + 1, le_refl _, by rw [hi, Function.iterate_succ_apply']⟩
  · intro j h1 h2
    rcases h2.eq_or_lt with rfl | h2
    · rw [Function.iterate_succ_apply', hkey]; exact hne
    · exact W.away j h1 (by omega)
  · intro w a h
    rcases W.found w a h with ⟨ha, h1⟩ | h1
    · rcases Nat.lt_trichotomy a p with h2 | h2 | h2
      · left
        refine ⟨by rw [List.length_append, len]; omega, ?_⟩
        rw [List.getElem_append_left (by rw [len]; exact h2), List.getElem_take]
        exact h1
      · left
        subst h2
        refine ⟨by rw [List.length_append, len]; simp, ?_⟩
        rw [List.getElem_append_right (by rw [len])]
        simp only [len, Nat.sub_self, List.getElem_cons_zero]
        rw [hkey, ← hk]
        exact h1
      · right
        refine ⟨R.drop p, k, by omega, hloop, ?_, ?_, ?_, ?_⟩
        · rw [← hk]
          refine List.mem_map_of_mem ?_
          rw [List.drop_eq_getElem_cons hp]; exact List.mem_cons_self
        · rw [← h1]
          refine List.mem_map_of_mem ?_
          have : R[a] = (R.drop p)[a - p]'(by rw [List.length_drop]; omega) := by
            rw [List.getElem_drop]; congr 1; omega
          rw [this]
          exact List.getElem_mem _
        · intro h3
          rw [h3, ← hk] at h1
          have := keyInj a p ha hp h1
          omega
        · intro i hi
          obtain ⟨j, hj, h⟩ := W.past i (List.mem_of_mem_drop hi)
          exact ⟨j, hj, h⟩
    · exact Or.inr (Stale.mono h1)
  · intro a ha
    rw [List.length_append, len, List.length_singleton] at ha
    by_cases h : a < p
    · rw [List.getElem_append_left (by rw [len]; exact h), List.getElem_take]
      exact W.live a (by omega)
    · have : a = p := by omega
      subst this
      rw [List.getElem_append_right (by rw [len])]
      simp only [len, Nat.sub_self, List.getElem_cons_zero]
      rw [hkey]
      exact hpos

end Walk

end Darts

end Clipping

import Verif.Lemmas.TreeSweep.Linear
import Verif.Model.TreeMixed

/-!
# Invariants of the marks in a sweep over any segments
-/

namespace Clipping.TreeSweep

variable {α : Type} {O : Ops α}

/-- A property of events and queue which no step of a sweep breaks. -/
structure Kept (O : Ops α) (I : Store α → Prop) : Prop where
  divide : ∀ s i p, I s → I (divideSegment O.toPayload s i p)
  overlap : ∀ s i j b, I s → I ⟨(s.heap.setData i (O.overlap b (s.heap.lefts i) (s.heap.lefts j)).1).setData j
    (O.overlap b (s.heap.lefts i) (s.heap.lefts j)).2, s.queue⟩
  compute : ∀ s i b, I s → I (computeFields O s i b)

variable {I : Store α → Prop}

theorem Kept.overlapping (K : Kept O I) {s : Store α} (hI : I s) (u v : ℕ) : I (divideOverlapping O.toPayload s u v) := by
  unfold divideOverlapping
  dsimp only
  split_ifs <;> first | exact hI | exact K.divide _ _ _ hI | exact K.divide _ _ _ (K.divide _ _ _ hI)

theorem Kept.detect (K : Kept O I) {s s' : Store α} {u v : ℕ} {b : Bool} (hI : I s)
    (h : detectIntersection O.toPayload s u v = .ok (s', b)) : I s' := by
  have two : ∀ (c d : Prop) [Decidable c] [Decidable d] (i j : ℕ) (p q : Point),
      I (if d then divideSegment O.toPayload (if c then divideSegment O.toPayload s i p else s) j q
        else (if c then divideSegment O.toPayload s i p else s)) := by
    intro c d _ _ i j p q
    split_ifs <;> first | exact hI | exact K.divide _ _ _ hI | exact K.divide _ _ _ (K.divide _ _ _ hI)
  unfold detectIntersection at h
  dsimp only at h
  split at h
  · cases h; exact hI
  · split at h
    · cases h; exact two _ _ _ _ _ _
    · cases h; exact hI
  · split at h
    · cases h; exact two _ _ _ _ _ _
    · cases h; exact hI
  · split at h
    · cases h
    · cases h
      exact K.overlapping (K.overlap _ _ _ _ hI) _ _

theorem Kept.checkAbove (K : Kept O I) {s s' : Store α} {e : ℕ} {above below : Option ℕ} (hI : I s)
    (h : checkAbove O s e above below = .ok s') : I s' := by
  unfold Clipping.checkAbove at h
  split at h
  · cases h; exact hI
  · split at h
    · cases h
    · rename_i hd; cases h; exact K.detect hI hd
    · rename_i hd; cases h; exact K.compute _ _ _ (K.compute _ _ _ (K.detect hI hd))

theorem Kept.checkBelow (K : Kept O I) {t : RTree} {s s' : Store α} {e : ℕ} {below : Option ℕ} (hI : I s)
    (h : treeCheckBelow O t s e below = .ok s') : I s' := by
  unfold treeCheckBelow at h
  split at h
  · cases h; exact hI
  · split at h
    · cases h
    · rename_i hd; cases h; exact K.detect hI hd
    · rename_i hd; cases h; exact K.compute _ _ _ (K.compute _ _ _ (K.detect hI hd))

theorem Kept.process (K : Kept O I) {B : Balancing} {s s' : TreeState α} {e : Ev} (hI : I s.store)
    (h : treeProcess B O s e = .ok s') : I s'.store := by
  cases e with
  | left i =>
    unfold treeProcess treeLeft at h
    dsimp only at h
    split at h
    · cases h; exact hI
    · split at h
      · cases h
      · rename_i h1
        split at h
        · cases h
        · rename_i h2
          cases h
          exact K.checkBelow (K.checkAbove (K.compute _ _ _ hI) h1) h2
  | right j =>
    unfold treeProcess treeRight at h
    dsimp only at h
    split at h
    · cases h; exact hI
    · split at h
      · split at h
        · cases h
        · rename_i hd; cases h; exact K.detect hI hd
      · cases h; exact hI

variable {J : Heap α → Prop}

theorem Kept.loop (K : Kept O fun s => J s.heap) {B : Balancing} {tb : TieBreak} {stop : Point → Bool} : ∀ (fuel : ℕ)
    {s s' : TreeState α} {log log' : List (Ev × ℕ)}, J s.store.heap → treeLoop B O tb stop fuel s log = .ok (s', log') →
    J s'.store.heap := by
  intro fuel
  induction fuel with
  | zero => intro s s' log log' _ h; cases h
  | succ fuel ih =>
    intro s s' log log' hI h
    unfold treeLoop at h
    split at h
    · cases h; exact hI
    · split at h
      · cases h; exact hI
      · split at h
        · cases h
        · rename_i hp
          exact ih (K.process (by exact hI) hp) h

theorem Kept.register (K : ∀ h t f, J h → J (h.create O.create t f)) : ∀ (l : List Segment) (s : Store α) (f : Bool), J s.heap →
    J (register O.toPayload s l f).heap := by
  intro l
  induction l with
  | nil => exact fun s f h => h
  | cons t l ih => exact fun s f h => ih _ _ (K _ _ _ h)

/-- Properties of the events after a sweep. -/
theorem Kept.sweep (K : Kept O fun s => J s.heap) (C : ∀ h t f, J h → J (h.create O.create t f)) {B : Balancing} {d : α}
    (h0 : J (Heap.nothing d)) {tb : TieBreak} {stop : Point → Bool} {a b : List Segment} {s : TreeState α} {log : List (Ev × ℕ)}
    (h : treeSweep B O d tb stop a b = .ok (s, log)) : J s.store.heap :=
  K.loop _ (Kept.register C _ _ _ (Kept.register C _ _ _ h0)) h

/-- Only parts of the linear operand are marked as parts of the result. -/
def MarkedFirst (h : Heap MixedData) : Prop := ∀ i, (h.lefts i).data.fromResult = true → h.first i = true

theorem setData_first (h : Heap α) (i : ℕ) (d : α) (j : ℕ) : (h.setData i d).first j = h.first j := by
  unfold Heap.setData Heap.first
  by_cases hj : j = i
  · subst hj; simp
  · simp [Function.update_of_ne hj]

theorem setData_data (h : Heap α) (i : ℕ) (d : α) (j : ℕ) :
    ((h.setData i d).lefts j).data = if j = i then d else (h.lefts j).data := by
  unfold Heap.setData
  by_cases hj : j = i
  · subst hj; simp
  · simp [Function.update_of_ne hj, hj]

theorem markedFirst_kept {g : Bool → MixedData → Bool} (hg : ∀ d, g false d = false) : Kept (mixedOps g) fun s => MarkedFirst s.heap where
  divide := by
    intro s i p H j hj
    obtain ⟨h, q⟩ := s
    unfold divideSegment Heap.divide Heap.first at *
    dsimp only at *
    by_cases h1 : j = i
    · subst h1
      rw [Function.update_self] at hj ⊢
      exact H j hj
    · rw [Function.update_of_ne h1] at hj ⊢
      by_cases h2 : j = h.count
      · subst h2
        rw [Function.update_self] at hj
        cases hj
      · rw [Function.update_of_ne h2] at hj ⊢
        exact H j hj
  overlap := by
    intro s i j b H k hk
    obtain ⟨h, q⟩ := s
    dsimp only at *
    rw [setData_data, setData_data] at hk
    rw [setData_first, setData_first]
    split_ifs at hk with h1 h2
    · subst h1; exact H k hk
    · subst h2; exact H k hk
    · exact H k hk
  compute := by
    intro s i b H j hj
    obtain ⟨h, q⟩ := s
    unfold computeFields at *
    dsimp only at *
    rw [setData_data] at hj
    rw [setData_first]
    split_ifs at hj with h1
    · subst h1
      by_contra hf
      rw [Bool.not_eq_true] at hf
      have : (mixedCompute g h j b).fromResult = true := hj
      unfold mixedCompute at this
      dsimp only at this
      rw [hf, hg] at this
      cases this
    · exact H j hj

theorem markedFirst_create {g : Bool → MixedData → Bool} (h : Heap MixedData) (t : Segment) (f : Bool) (H : MarkedFirst h) :
    MarkedFirst (h.create (mixedOps g).create t f) := by
  intro j hj
  unfold Heap.create Heap.first at *
  dsimp only at *
  by_cases h2 : j = h.count
  · subst h2
    rw [Function.update_self] at hj
    cases hj
  · rw [Function.update_of_ne h2] at hj ⊢
    exact H j hj

/-- After a sweep over a linear operand and any edges. -/
theorem treeMixedSweep_good (B : Balancing) {g : Bool → MixedData → Bool} (hg : ∀ d, g false d = false) (tb : TieBreak) (xmax : Option ℚ)
    {L : List Segment} {ps : List Polygon} (pa : ∀ s ∈ L, s.Proper) (pb : ∀ s ∈ ps.flatMap polygonEdges, s.Proper) :
    treeMixedSweep B g tb xmax L ps = .error .sameOperandOverlap ∨
      ∃ h log, treeMixedSweep B g tb xmax L ps = .ok (h, log) ∧ Pieces L (ps.flatMap polygonEdges) h log ∧ MarkedFirst h := by
  unfold treeMixedSweep
  rcases treeSweep_good B (mixedOps g) ⟨false, false, false, false⟩ tb (stopAt xmax) pa pb with h | ⟨s, log, h, P⟩
  · rw [h]; exact Or.inl rfl
  · rw [h]
    exact Or.inr ⟨_, _, rfl, P, (markedFirst_kept hg).sweep (fun h t f => markedFirst_create h t f) (by intro i hi; cases hi) h⟩

variable {L E : List Segment} {h : Heap MixedData} {log : List (Ev × ℕ)}

/-- The segments of the result are parts of the linear operand. -/
theorem Pieces.result (P : Pieces L E h log) (M : MarkedFirst h) {is : List ℕ} (his : ∀ i ∈ is, i < h.count) :
    ∀ c ∈ resultSegments h is, PartOf c L ∧ ∀ v, c.IsEnd v → Vertex (L ++ E) v := by
  intro c hc
  unfold resultSegments at hc
  obtain ⟨i, hi, rfl⟩ := List.mem_map.1 hc
  obtain ⟨hi, hr⟩ := List.mem_filter.1 hi
  refine ⟨P.first i (his i hi) (M i hr), ?_⟩
  rintro v (rfl | rfl)
  · exact (P.vert i (his i hi)).1
  · exact (P.vert i (his i hi)).2

theorem Pieces.lefts_lt (P : Pieces L E h log) {i : ℕ} (hi : i ∈ leftsOf log) : i < h.count := by
  unfold leftsOf at hi
  obtain ⟨⟨e, j⟩, hx, hf⟩ := List.mem_filterMap.1 hi
  dsimp only at hf
  split at hf
  · cases hf; exact (P.log _ hx).2
  · cases hf

theorem Pieces.rights_lt (P : Pieces L E h log) {i : ℕ} (hi : i ∈ rightsOf log) : i < h.count := by
  unfold rightsOf at hi
  obtain ⟨⟨e, j⟩, hx, hf⟩ := List.mem_filterMap.1 hi
  dsimp only at hf
  split at hf
  · cases hf
  · cases hf; exact (P.log _ hx).2

end Clipping.TreeSweep

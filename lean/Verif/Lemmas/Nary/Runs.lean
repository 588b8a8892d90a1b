import Verif.Model.Nary

/-!
# All runs of the n-ary sweep, whatever the ties
-/

namespace Clipping.Nary

/-- Events the queue may give. -/
def choices (s : Store Unit) : List Ev :=
  match s.queue.filter fun a => s.queue.all fun b => !naryPrecedes s.heap b a with
  | [] => s.queue.head?.toList
  | l => l

theorem naryPop_choices {tb : TieBreak} {s : Store Unit} {e : Ev} {q : List Ev}
    (h : naryPop tb s = some (e, q)) : e ∈ choices s ∧ q = s.queue.erase e := by
  unfold naryPop at h
  cases hs : s.queue with
  | nil => rw [hs] at h; cases h
  | cons a r =>
    rw [hs] at h
    simp only [Option.some.injEq, Prod.mk.injEq] at h
    obtain ⟨h1, h2⟩ := h
    rw [h1] at h2
    refine ⟨?_, h2.symm⟩
    unfold choices
    rw [hs]
    cases hf : (tb.order (a :: r)).find? fun x => (a :: r).all fun b => !naryPrecedes s.heap b x with
    | none =>
      rw [hf] at h1
      have : (a :: r).filter (fun x => (a :: r).all fun b => !naryPrecedes s.heap b x) = [] := by
        rw [List.filter_eq_nil_iff]
        intro x hx
        exact List.find?_eq_none.1 hf x ((tb.perm _).mem_iff.2 hx)
      rw [this]
      simp [← h1]
    | some x =>
      rw [hf] at h1
      have hx := List.find?_some hf
      have hm : x ∈ (a :: r).filter (fun x => (a :: r).all fun b => !naryPrecedes s.heap b x) :=
        List.mem_filter.2 ⟨(tb.perm _).mem_iff.1 (List.mem_of_find?_eq_some hf), hx⟩
      obtain rfl : x = e := h1
      split
      · rename_i h0; rw [h0] at hm; cases hm
      · exact hm

/-- Results of all runs. -/
def naryRuns (B : Balancing) : ℕ → NaryState → List (List Segment)
  | 0, _ => []
  | fuel + 1, s =>
    if s.store.queue.isEmpty then [s.result]
    else (choices s.store).flatMap fun e =>
      naryRuns B fuel (naryProcess B { s with store := { s.store with queue := s.store.queue.erase e } } e)

theorem naryLoop_runs {B : Balancing} {tb : TieBreak} : ∀ {fuel : ℕ} {s s' : NaryState},
    naryLoop B tb fuel s = .ok s' → s'.result ∈ naryRuns B fuel s := by
  intro fuel
  induction fuel with
  | zero => intro s s' h; cases h
  | succ fuel ih =>
    intro s s' h
    unfold naryLoop at h
    unfold naryRuns
    cases hp : naryPop tb s.store with
    | none =>
      rw [hp] at h
      injection h with h
      subst h
      have : s.store.queue = [] := by
        unfold naryPop at hp
        cases hs : s.store.queue with
        | nil => rfl
        | cons a r => rw [hs] at hp; cases hp
      simp [this]
    | some x =>
      obtain ⟨e, q⟩ := x
      rw [hp] at h
      obtain ⟨h1, rfl⟩ := naryPop_choices hp
      have hne : s.store.queue.isEmpty = false := by
        cases hs : s.store.queue with
        | nil => unfold naryPop at hp; rw [hs] at hp; cases hp
        | cons a r => rfl
      rw [hne, if_neg Bool.false_ne_true, List.mem_flatMap]
      exact ⟨e, h1, ih h⟩

/-- Results of `_merge_segments` for all ties. -/
def mergeRuns (B : Balancing) (l : List Segment) : List (List Segment) :=
  (naryRuns B (sweepFuel l.length) ⟨register linearOps.toPayload ⟨Heap.nothing (), []⟩ l true, .nil, []⟩).map
    fun r => sortEndpoints ((groupRuns id r.reverse).map Prod.fst)

theorem mergeSegments_runs {B : Balancing} {tb : TieBreak} {l r : List Segment}
    (h : mergeSegments B tb l = .ok r) : r ∈ mergeRuns B l := by
  unfold mergeSegments at h
  dsimp only at h
  cases hl : naryLoop B tb (sweepFuel l.length)
      ⟨register linearOps.toPayload ⟨Heap.nothing (), []⟩ l true, .nil, []⟩ with
  | error e => rw [hl] at h; cases h
  | ok s =>
    rw [hl] at h
    injection h with h
    exact List.mem_map.2 ⟨_, naryLoop_runs hl, h⟩

end Clipping.Nary

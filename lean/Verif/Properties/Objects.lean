import Verif.Lemmas.Objects.Calls
import Verif.Properties.Mixed

/-!
# C70: calls never change the operands or earlier results

In Python the lists of multisegments, multiregions and multipolygons are mutable objects which several geometries may share, and the library extends,
sorts and appends to some of its lists in place.  `Call.run` works on list objects (`Verif.Model.Objects`, `Verif.Model.ObjectCalls`), `Call.value`
is the result of the functions on values (which all other properties are about).
-/

namespace Clipping.Objects

variable {orient : Orient} {B : Balancing} {tb : TieBreak} {st st' : Store}

/-- **C70** No call of any function changes a list which exists before the call. -/
theorem call_keeps_lists {c : Call} {v : Value} (exist : ∀ r ∈ c.refs, r < st.length) (returns : c.run orient B tb st = .ok (v, st')) :
    ∀ r < st.length, st'[r]? = st[r]? := by
  have h := call_refines' orient B tb c exist
  rw [returns] at h
  obtain ⟨new, rfl⟩ := h.2.1
  exact fun r hr => List.getElem?_append_left hr

/-- **C70** The call returns the geometry which the function on values gives for the operands. -/
theorem call_returns_value {c : Call} {v : Value} (exist : ∀ r ∈ c.refs, r < st.length)
    (returns : c.run orient B tb st = .ok (v, st')) : c.value orient B tb st = .ok (v.read st') := by
  have h := call_refines' orient B tb c exist
  rw [returns] at h
  exact h.1

/-- **C70** The call fails if and only if the function on values does. -/
theorem call_fails_iff {c : Call} {e : Err} (exist : ∀ r ∈ c.refs, r < st.length) :
    c.run orient B tb st = .error e ↔ c.value orient B tb st = .error e := by
  have h := call_refines' orient B tb c exist
  cases hr : c.run orient B tb st with
  | error e' => rw [hr] at h; rw [show c.value orient B tb st = .error e' from h]; simp
  | ok x => rw [hr] at h; rw [h.1]; simp

/-- **C70** The result refers to new lists, apart from the results of differences, which may be the minuend itself, and of unions and symmetric
differences of a linear and a shaped operand, which may contain the operands themselves. -/
theorem call_shares {c : Call} {v : Value} (exist : ∀ r ∈ c.refs, r < st.length) (returns : c.run orient B tb st = .ok (v, st')) :
    ∀ r ∈ v.refs, r < st'.length ∧ (r < st.length → r ∈ c.shared) := by
  have h := call_refines' orient B tb c exist
  rw [returns] at h
  exact h.2.2

/-- **C70** Whatever a program does with lists and with results: at its end all lists which it had at its beginning are as they were. -/
theorem history_keeps_lists {calls : List (Call × TieBreak × Value)} (h : History orient B st calls st') : ∀ r < st.length, st'[r]? = st[r]? := by
  induction h with
  | done st => exact fun _ _ => rfl
  | @makes st st' calls l h ih =>
    intro r hr
    rw [ih r (by rw [List.length_append]; exact Nat.lt_add_right _ hr), List.getElem?_append_left hr]
  | @calls st st₁ st' calls c tb v exist returns h ih =>
    intro r hr
    have key := call_refines' orient B tb c exist
    rw [returns] at key
    rw [ih r (hr.trans_le key.2.1.length_le), call_keeps_lists exist returns r hr]

private theorem prefix_of_keeps (h : ∀ r < st.length, st'[r]? = st[r]?) : st <+: st' := by
  rw [List.prefix_iff_getElem?]
  intro i hi
  rw [h i hi, List.getElem?_eq_getElem hi]

/-- **C70** At the end of a history every result is still the geometry which the function on values gives for the operands, which are still the
same: no call changes the result of an earlier one. -/
theorem history_results {calls : List (Call × TieBreak × Value)} (h : History orient B st calls st') {c : Call} {tb : TieBreak} {v : Value}
    (hc : (c, tb, v) ∈ calls) : c.value orient B tb st' = .ok (v.read st') := by
  induction h with
  | done st => simp at hc
  | makes l h ih => exact ih hc
  | @calls st st₁ st' calls c₁ tb₁ v₁ exist returns h ih =>
    rcases List.mem_cons.1 hc with e | hc
    · cases e
      have key := call_refines' orient B tb c exist
      rw [returns] at key
      obtain ⟨new, rfl⟩ := prefix_of_keeps (history_keeps_lists h)
      obtain ⟨new', rfl⟩ := key.2.1
      rw [read_old (fun r hr => (key.2.2 r hr).1), List.append_assoc, value_more orient B tb c exist]
      exact key.1
    · exact ih hc

/-- **C70** Repeating a call later gives the same geometry. -/
theorem history_repeated {calls : List (Call × TieBreak × Value)} (h : History orient B st calls st') {c : Call} {tb : TieBreak} {v w : Value}
    (hv : (c, tb, v) ∈ calls) (hw : (c, tb, w) ∈ calls) : v.read st' = w.read st' :=
  Except.ok.inj ((history_results h hv).symm.trans (history_results h hw))

/-! ## Witnesses -/

/-- two multisegments which are apart and one which crosses the first -/
def exLists : Store :=
  [.segments [⟨⟨0, 0⟩, ⟨1, 0⟩⟩, ⟨⟨0, 1⟩, ⟨1, 1⟩⟩], .segments [⟨⟨5, 0⟩, ⟨6, 0⟩⟩, ⟨⟨5, 1⟩, ⟨6, 1⟩⟩],
    .segments [⟨⟨0, -1⟩, ⟨1, 2⟩⟩, ⟨⟨0, 2⟩, ⟨1, -1⟩⟩]]

/-- A difference which is the minuend itself, a union which is a new list that was sorted in place, and a difference of the two results. -/
example : History noOrient B exLists
    [(.multisegments .difference 0 1, .id, .multisegment 0), (.multisegments .union 0 1, .id, .multisegment 3),
      (.multisegments .difference 3 0, .id, .multisegment 5)]
    (exLists ++ [.segments [⟨⟨0, 0⟩, ⟨1, 0⟩⟩, ⟨⟨0, 1⟩, ⟨1, 1⟩⟩, ⟨⟨5, 0⟩, ⟨6, 0⟩⟩, ⟨⟨5, 1⟩, ⟨6, 1⟩⟩]] ++
      [.segments [⟨⟨0, 0⟩, ⟨1, 0⟩⟩, ⟨⟨0, 1⟩, ⟨1, 1⟩⟩]] ++ [.segments [⟨⟨5, 0⟩, ⟨6, 0⟩⟩, ⟨⟨5, 1⟩, ⟨6, 1⟩⟩]]) := by
  refine .calls (st₁ := exLists) (by simp [Call.refs, exLists]) ?_
    (.calls (st₁ := exLists ++ [.segments [⟨⟨0, 0⟩, ⟨1, 0⟩⟩, ⟨⟨0, 1⟩, ⟨1, 1⟩⟩, ⟨⟨5, 0⟩, ⟨6, 0⟩⟩, ⟨⟨5, 1⟩, ⟨6, 1⟩⟩]])
      (by simp [Call.refs, exLists]) ?_ (.calls (by simp [Call.refs, exLists]) ?_ (.done _)))
  · show (do linearCompute .id .difference (← linearObject (.multisegment 0)) (← linearObject (.multisegment 1)) : Prog Value) _ = _
    decide +kernel
  · show (do linearCompute .id .union (← linearObject (.multisegment 0)) (← linearObject (.multisegment 1)) : Prog Value) _ = _
    decide +kernel
  · show (do linearCompute .id .difference (← linearObject (.multisegment 3)) (← linearObject (.multisegment 0)) : Prog Value) _ = _
    decide +kernel

/-- the lists of a multisegment and of a multipolygon which is apart from it -/
def exMixedLists : Store :=
  [.segments [⟨⟨0, 0⟩, ⟨1, 0⟩⟩, ⟨⟨0, 1⟩, ⟨1, 1⟩⟩],
    .polygons [⟨⟨[⟨5, 0⟩, ⟨6, 0⟩, ⟨6, 1⟩]⟩, []⟩, ⟨⟨[⟨7, 0⟩, ⟨8, 0⟩, ⟨8, 1⟩]⟩, []⟩]]

/-- The union contains the operands themselves. -/
example : History noOrient B exMixedLists
    [(.mixed .union (.multisegment 0) (.multipolygon 1), .id, .mix .empty (.multisegment 0) (.multipolygon 1))] exMixedLists := by
  refine .calls (by simp [Call.refs, LinearArgument.refs, ShapedArgument.refs, exMixedLists]) ?_ (.done _)
  show (do mixedCompute noOrient .id .union (← linearObject (.multisegment 0)) (← shapedObject (.multipolygon 1)) : Prog Value) _ = _
  decide +kernel

end Clipping.Objects

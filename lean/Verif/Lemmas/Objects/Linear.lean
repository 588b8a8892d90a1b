import Verif.Lemmas.Objects.Core

/-!
# Operations on list objects do what the operations on values do: `linear.py`
-/

namespace Clipping.Objects

namespace Refines

variable {α : Type} {st st' : Store} {shared : List Ref}

theorem calculate {x : Except Err α} {f : α → Prog Value} {F : α → Except Err Geometry}
    (h : ∀ a, Refines st shared (f a st') (F a)) : Refines st shared ((calculate x >>= f) st') (x >>= F) := by
  cases x with
  | error e => exact rfl
  | ok a => exact h a

theorem ite {c : Prop} [Decidable c] {p q : Prog Value} {a b : Except Err Geometry} (h : Refines st shared (p st') a)
    (h' : Refines st shared (q st') b) : Refines st shared ((if c then p else q) st') (if c then a else b) := by
  split
  · exact h
  · exact h'

/-- an object which was there before -/
theorem old (new : Store) {v : Value} (h : ∀ r ∈ v.refs, r < st.length ∧ r ∈ shared) :
    Refines st shared ((pure v : Prog Value) (st ++ new)) (pure (v.read st)) := by
  refine ⟨congrArg Except.ok (read_old (fun r hr => (h r hr).1) new).symm, List.prefix_append _ _, fun r hr => ⟨?_, fun _ => (h r hr).2⟩⟩
  rw [List.length_append]
  exact Nat.lt_add_right _ (h r hr).1

theorem old' {v : Value} (h : ∀ r ∈ v.refs, r < st.length ∧ r ∈ shared) :
    Refines st shared ((pure v : Prog Value) st) (pure (v.read st)) := by
  have := old [] h
  rwa [List.append_nil] at this

theorem empty (hp : st <+: st') : Refines st shared ((pure .empty : Prog Value) st') (pure .empty) := ⟨rfl, hp, by simp [Value.refs]⟩

/-- a new list which is unpacked -/
theorem segments {r : Ref} (hr : r < st'.length) (hn : st.length ≤ r) (hp : st <+: st') :
    Refines st shared (unpackSegmentsList r st') (pure (unpackSegments (st'.segments r))) := by
  rw [unpackSegmentsList_eq]
  refine ⟨congrArg Except.ok (segmentsValue_read _ _ _ rfl).symm, hp, fun r' h => ?_⟩
  obtain rfl := segmentsValue_refs h
  exact ⟨hr, fun g => absurd g (Nat.not_lt.2 hn)⟩

/-- a new list of a multisegment -/
theorem multisegment {r : Ref} (hr : r < st'.length) (hn : st.length ≤ r) (hp : st <+: st') :
    Refines st shared ((pure (.multisegment r) : Prog Value) st') (pure (.multisegment (st'.segments r))) := by
  refine ⟨rfl, hp, fun r' h => ?_⟩
  rw [Value.refs, List.mem_singleton] at h
  subst h
  exact ⟨hr, fun g => absurd g (Nat.not_lt.2 hn)⟩

theorem polygons {r : Ref} (hr : r < st'.length) (hn : st.length ≤ r) (hp : st <+: st') :
    Refines st shared (unpackPolygonsList r st') (pure (unpackPolygons (st'.polygons r))) := by
  rw [unpackPolygonsList_eq]
  refine ⟨congrArg Except.ok (polygonsValue_read _ _ _ rfl).symm, hp, fun r' h => ?_⟩
  obtain rfl := polygonsValue_refs h
  exact ⟨hr, fun g => absurd g (Nat.not_lt.2 hn)⟩

theorem multipolygon {r : Ref} (hr : r < st'.length) (hn : st.length ≤ r) (hp : st <+: st') :
    Refines st shared ((pure (.multipolygon r) : Prog Value) st') (pure (.multipolygon (st'.polygons r))) := by
  refine ⟨rfl, hp, fun r' h => ?_⟩
  rw [Value.refs, List.mem_singleton] at h
  subst h
  exact ⟨hr, fun g => absurd g (Nat.not_lt.2 hn)⟩

end Refines

theorem segments_new (st : Store) (l : List Segment) : Store.segments (st ++ [.segments l]) st.length = l := by simp [Store.segments]

theorem polygons_new (st : Store) (l : List Polygon) : Store.polygons (st ++ [.polygons l]) st.length = l := by simp [Store.polygons]

theorem regions_new (st : Store) (l : List Contour) : Store.regions (st ++ [.regions l]) st.length = l := by simp [Store.regions]

theorem modify_last {β : Type} (l : List β) (x : β) (f : β → β) : (l ++ [x]).modify l.length f = l ++ [f x] := by
  induction l with
  | nil => rfl
  | cons y l ih => simpa using ih

theorem run_extendSegments {β : Type} (st : Store) (l l' : List Segment) (f : Unit → Prog β) :
    (extendSegments st.length l' >>= f) (st ++ [PyList.segments l]) = f () (st ++ [PyList.segments (l ++ l')]) := by
  show f () ((st ++ [PyList.segments l]).modify st.length _) = _
  rw [modify_last]

theorem run_sortSegments {β : Type} (st : Store) (l : List Segment) (f : Unit → Prog β) :
    (sortSegmentsInPlace st.length >>= f) (st ++ [PyList.segments l]) = f () (st ++ [PyList.segments (sortEndpoints l)]) := by
  show f () ((st ++ [PyList.segments l]).modify st.length _) = _
  rw [modify_last]

theorem run_extendPolygons {β : Type} (st : Store) (l l' : List Polygon) (f : Unit → Prog β) :
    (extendPolygons st.length l' >>= f) (st ++ [PyList.polygons l]) = f () (st ++ [PyList.polygons (l ++ l')]) := by
  show f () ((st ++ [PyList.polygons l]).modify st.length _) = _
  rw [modify_last]

theorem run_sortPolygons {β : Type} (st : Store) (l : List Polygon) (f : Unit → Prog β) :
    (sortPolygonsInPlace st.length >>= f) (st ++ [PyList.polygons l]) = f () (st ++ [PyList.polygons (sortPolygons l)]) := by
  show f () ((st ++ [PyList.polygons l]).modify st.length _) = _
  rw [modify_last]

/-- a wrapper the lists of which are there -/
structure LinearObject.Ok (st : Store) (shared : List Ref) (a : LinearObject) : Prop where
  list : a.segments < st.length
  value : ∀ r ∈ a.value.refs, r < st.length ∧ r ∈ shared

/-- the operand at the moment -/
def LinearObject.operand (st : Store) (a : LinearObject) : LinearOperand := ⟨a.value.read st, st.segments a.segments⟩

variable {st : Store} {shared : List Ref} {first second : LinearObject}

theorem Refines.newSegments {st' : Store} (hp : st <+: st') (l : List Segment) :
    Refines st shared ((new (.segments l) >>= unpackSegmentsList) st') (pure (unpackSegments l)) := by
  rw [run_new]
  have := Refines.segments (st := st) (st' := st' ++ [PyList.segments l]) (shared := shared) (r := st'.length) (by simp) hp.length_le
    (hp.trans (List.prefix_append _ _))
  rwa [segments_new] at this

theorem Refines.newPolygons {st' : Store} (hp : st <+: st') (l : List Polygon) :
    Refines st shared ((new (.polygons l) >>= unpackPolygonsList) st') (pure (unpackPolygons l)) := by
  rw [run_new]
  have := Refines.polygons (st := st) (st' := st' ++ [PyList.polygons l]) (shared := shared) (r := st'.length) (by simp) hp.length_le
    (hp.trans (List.prefix_append _ _))
  rwa [polygons_new] at this

theorem segments_new' (st : Store) (l : List Segment) (x : Store) : Store.segments (st ++ [.segments l] ++ x) st.length = l := by simp [Store.segments]

theorem polygons_new' (st : Store) (l : List Polygon) (x : Store) : Store.polygons (st ++ [.polygons l] ++ x) st.length = l := by simp [Store.polygons]

theorem regions_new' (st : Store) (l : List Contour) (x : Store) : Store.regions (st ++ [.regions l] ++ x) st.length = l := by simp [Store.regions]

theorem prefix_two (st x y : Store) : st <+: st ++ x ++ y := by rw [List.append_assoc]; exact List.prefix_append _ _

theorem difference_refines (tb : TieBreak) (h1 : first.Ok st shared) :
    Refines st shared (difference tb first second st) (linearDifference tb (first.operand st) (second.operand st)) := by
  unfold difference linearDifference LinearObject.operand
  simp only [run_readSegments]
  refine .calculate fun firstBox => ?_
  simp only [run_readSegments]
  refine .calculate fun secondBox => .ite (.old' h1.value) ?_
  simp only [run_readSegments, run_new, segments_new]
  refine .ite (.old _ h1.value) ?_
  simp only [run_readSegments, segments_old h1.list]
  refine .calculate fun xmax => ?_
  simp only [run_readSegments, segments_old h1.list, segments_new]
  refine .calculate fun ⟨h, events⟩ => ?_
  exact .newSegments (List.prefix_append _ _) _

theorem intersection_refines (tb : TieBreak) (h2 : second.segments < st.length) :
    Refines st shared (intersection tb first second st) (linearIntersection tb (first.operand st) (second.operand st)) := by
  unfold intersection linearIntersection LinearObject.operand
  simp only [run_readSegments]
  refine .calculate fun firstBox => ?_
  simp only [run_readSegments]
  refine .calculate fun secondBox => .ite (.empty (List.prefix_rfl)) ?_
  simp only [run_readSegments, run_new, segments_new]
  refine .ite (.empty (List.prefix_append _ _)) ?_
  simp only [run_readSegments, run_new, segments_old h2, segments_new]
  refine .ite (.empty (prefix_two _ _ _)) ?_
  simp only [run_readSegments, segments_new']
  refine .calculate fun x1 => ?_
  simp only [run_readSegments, segments_new]
  refine .calculate fun x2 => ?_
  simp only [run_readSegments, segments_new, segments_new']
  refine .calculate fun ⟨h, events⟩ => ?_
  exact .newSegments (prefix_two _ _ _) _

theorem allSegments_refines (h1 : first.segments < st.length) (h2 : second.segments < st.length) :
    Refines st shared (allSegments first second st)
      (pure (.multisegment (sortEndpoints (st.segments first.segments ++ st.segments second.segments)))) := by
  unfold allSegments
  simp only [run_new, run_readSegments, run_extendSegments, run_sortSegments, segments_old h1, segments_old h2, List.nil_append]
  have := Refines.multisegment (st := st) (shared := shared) (r := st.length)
    (st' := st ++ [PyList.segments (sortEndpoints (st.segments first.segments ++ st.segments second.segments))]) (by simp) le_rfl
    (List.prefix_append _ _)
  rwa [segments_new] at this

theorem symmetricDifference_refines (tb : TieBreak) (h1 : first.segments < st.length) (h2 : second.segments < st.length) :
    Refines st shared (symmetricDifference tb first second st) (linearSymmetricDifference tb (first.operand st) (second.operand st)) := by
  unfold symmetricDifference linearSymmetricDifference LinearObject.operand
  simp only [run_readSegments]
  refine .calculate fun firstBox => ?_
  simp only [run_readSegments]
  refine .calculate fun secondBox => .ite (allSegments_refines h1 h2) ?_
  simp only [run_readSegments]
  refine .calculate fun ⟨h, events⟩ => ?_
  exact .newSegments List.prefix_rfl _

theorem union_refines (tb : TieBreak) (h1 : first.segments < st.length) (h2 : second.segments < st.length) :
    Refines st shared (union tb first second st) (linearUnion tb (first.operand st) (second.operand st)) := by
  unfold union linearUnion LinearObject.operand
  simp only [run_readSegments]
  refine .calculate fun firstBox => ?_
  simp only [run_readSegments]
  refine .calculate fun secondBox => .ite (allSegments_refines h1 h2) ?_
  simp only [run_readSegments]
  refine .calculate fun ⟨h, events⟩ => ?_
  simp only [run_new]
  have := Refines.multisegment (st := st) (shared := shared) (r := st.length)
    (st' := st ++ [PyList.segments (selectSegments (fun _ => true) h events)]) (by simp) le_rfl (List.prefix_append _ _)
  rwa [segments_new] at this

theorem unpackPointsValue_refs (points : List Point) : (unpackPointsValue points).refs = [] := by
  cases points <;> rfl

theorem unpackPointsValue_read (points : List Point) : (unpackPointsValue points).read st = unpackPoints points := by
  cases points <;> rfl

theorem isEmpty_read (v : Value) : (v.read st).isEmpty = v.isEmpty := by cases v <;> rfl

theorem unpackLinearMixValue_read (v w : Value) : (unpackLinearMixValue v w).read st = unpackLinearMix (v.read st) (w.read st) := by
  unfold unpackLinearMixValue unpackLinearMix
  rw [isEmpty_read, isEmpty_read]
  split
  · rfl
  · split <;> rfl

theorem unpackMixValue_read (v w x : Value) : (unpackMixValue v w x).read st = unpackMix (v.read st) (w.read st) (x.read st) := by
  unfold unpackMixValue unpackMix
  rw [isEmpty_read, isEmpty_read, isEmpty_read]
  split
  · split
    · rfl
    · split <;> rfl
  · split <;> rfl

theorem unpackLinearMixValue_refs {v w : Value} {r : Ref} (h : r ∈ (unpackLinearMixValue v w).refs) : r ∈ v.refs ∨ r ∈ w.refs := by
  unfold unpackLinearMixValue at h
  split at h
  · exact .inr h
  · split at h
    · exact .inl h
    · simpa [Value.refs] using h

theorem unpackMixValue_refs {v w x : Value} {r : Ref} (h : r ∈ (unpackMixValue v w x).refs) : r ∈ v.refs ∨ r ∈ w.refs ∨ r ∈ x.refs := by
  unfold unpackMixValue at h
  split at h
  · split at h
    · exact .inr (.inr h)
    · split at h
      · exact .inr (.inl h)
      · simpa [Value.refs] using h
  · split at h
    · exact .inl h
    · simpa [Value.refs] using h

theorem Refines.linearMix {st' : Store} (hp : st <+: st') (points : List Point) (l : List Segment) :
    Refines st shared ((new (.segments l) >>= fun r => unpackSegmentsList r >>= fun v =>
      pure (unpackLinearMixValue (unpackPointsValue points) v)) st') (pure (unpackLinearMix (unpackPoints points) (unpackSegments l))) := by
  rw [run_new, run_unpackSegments, segments_new]
  refine ⟨?_, hp.trans (List.prefix_append _ _), fun r hr => ?_⟩
  · rw [unpackLinearMixValue_read, unpackPointsValue_read, segmentsValue_read _ _ _ (segments_new _ _)]; rfl
  · rcases unpackLinearMixValue_refs hr with h | h
    · rw [unpackPointsValue_refs] at h; simp at h
    · obtain rfl := segmentsValue_refs h
      exact ⟨by simp, fun g => absurd g (Nat.not_lt.2 hp.length_le)⟩

theorem completeIntersection_refines (tb : TieBreak) (h2 : second.segments < st.length) :
    Refines st shared (completeIntersection tb first second st) (linearCompleteIntersection tb (first.operand st) (second.operand st)) := by
  unfold completeIntersection linearCompleteIntersection LinearObject.operand
  simp only [run_readSegments]
  refine .calculate fun firstBox => ?_
  simp only [run_readSegments]
  refine .calculate fun secondBox => .ite (.empty (List.prefix_rfl)) ?_
  simp only [run_readSegments, run_new, segments_new]
  refine .ite (.empty (List.prefix_append _ _)) ?_
  simp only [run_readSegments, run_new, segments_old h2, segments_new]
  refine .ite (.empty (prefix_two _ _ _)) ?_
  simp only [run_readSegments, segments_new']
  refine .calculate fun x1 => ?_
  simp only [run_readSegments, segments_new]
  refine .calculate fun x2 => ?_
  simp only [run_readSegments, segments_new, segments_new']
  refine .calculate fun ⟨h, events⟩ => ?_
  exact .linearMix (prefix_two _ _ _) _ _

/-! ## A segment and a multisegment -/

theorem intersectLoop_eq (segment : Segment) (l l' : List Segment) :
    intersectLoop segment st.length l (st ++ [PyList.segments l']) =
      .ok ((), st ++ [PyList.segments (l' ++ intersectSegmentWithMultisegmentList segment l)]) := by
  induction l generalizing l' with
  | nil => rw [intersectSegmentWithMultisegmentList, List.append_nil]; rfl
  | cons sub rest ih =>
    unfold intersectLoop intersectSegmentWithMultisegmentList
    cases segmentsRelation segment sub <;> simp only [appendSegment, run_extendSegments, ih] <;> try simp

theorem subtractLoop_eq (segment : Segment) (l l' : List Segment) :
    subtractLoop segment st.length l (st ++ [PyList.segments l']) =
      .ok ((), st ++ [PyList.segments (l' ++ subtractSegmentFromMultisegmentList segment l)]) := by
  have last : ∀ l l', extendSegments st.length l (st ++ [PyList.segments l']) = .ok ((), st ++ [PyList.segments (l' ++ l)]) := by
    intro l l'
    show Except.ok ((), (st ++ [PyList.segments l']).modify st.length _) = _
    rw [modify_last]
  induction l generalizing l' with
  | nil => rw [subtractSegmentFromMultisegmentList, List.append_nil]; rfl
  | cons sub rest ih =>
    unfold subtractLoop subtractSegmentFromMultisegmentList
    cases segmentsRelation segment sub <;> simp only [appendSegment, run_extendSegments, ih, last] <;> simp

theorem run_of_eq {α β : Type} {p : Prog α} {st st' : Store} {a : α} (h : p st = .ok (a, st')) (f : α → Prog β) : (p >>= f) st = f a st' := by
  show Except.bind (p st) _ = _
  rw [h]; rfl

theorem intersectSegment_refines (segment : Segment) {r : Ref} (hr : r < st.length) :
    Refines st shared (intersectSegment segment r st) (pure (intersectSegmentWithMultisegment segment (st.segments r))) := by
  unfold intersectSegment
  simp only [run_new, run_readSegments, segments_old hr]
  rw [run_of_eq (intersectLoop_eq _ _ _)]
  have := Refines.segments (st := st) (shared := shared) (r := st.length)
    (st' := st ++ [PyList.segments (intersectSegmentWithMultisegmentList segment (st.segments r))]) (by simp) le_rfl (List.prefix_append _ _)
  rwa [segments_new] at this

theorem subtractedList_eq (segment : Segment) {r : Ref} (hr : r < st.length) : subtractedList r segment st =
    .ok (st.length, st ++ [PyList.segments (subtractSegmentFromMultisegmentList segment (st.segments r))]) := by
  unfold subtractedList
  simp only [run_new, run_readSegments, segments_old hr]
  rw [run_of_eq (subtractLoop_eq _ _ _)]
  rfl

theorem subtractSegment_refines (segment : Segment) {r : Ref} (hr : r < st.length) :
    Refines st shared (subtractSegment r segment st) (pure (subtractSegmentFromMultisegment (st.segments r) segment)) := by
  unfold subtractSegment
  rw [run_of_eq (subtractedList_eq segment hr)]
  have := Refines.segments (st := st) (shared := shared) (r := st.length)
    (st' := st ++ [PyList.segments (subtractSegmentFromMultisegmentList segment (st.segments r))]) (by simp) le_rfl (List.prefix_append _ _)
  rwa [segments_new] at this

theorem uniteSegment_refines (segment : Segment) {r : Ref} (hr : r < st.length) :
    Refines st shared (uniteSegment segment r st) (pure (uniteSegmentWithMultisegment segment (st.segments r))) := by
  unfold uniteSegment appendSegment
  rw [run_of_eq (subtractedList_eq segment hr), run_extendSegments]
  have := Refines.segments (st := st) (shared := shared) (r := st.length)
    (st' := st ++ [PyList.segments (subtractSegmentFromMultisegmentList segment (st.segments r) ++ [segment])]) (by simp) le_rfl
    (List.prefix_append _ _)
  rwa [segments_new] at this

end Clipping.Objects

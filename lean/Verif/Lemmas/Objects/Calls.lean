import Verif.Lemmas.Objects.Shaped
import Verif.Spec.Objects

/-!
# Calls on list objects do what the functions on values do
-/

namespace Clipping.Objects

variable {st : Store} {shared : List Ref}

theorem Refines.weaken {st' : Store} {shared' : List Ref} {result : Except Err (Value × Store)} {x : Except Err Geometry}
    (h : Refines st' shared' result x) (hp : st <+: st') (hs : ∀ r ∈ shared', r < st.length → r ∈ shared) : Refines st shared result x := by
  match result, h with
  | .error _, h => exact h
  | .ok (g, st₁), h =>
    refine ⟨h.1, hp.trans h.2.1, fun r hr => ⟨(h.2.2 r hr).1, fun hl => ?_⟩⟩
    exact hs r ((h.2.2 r hr).2 (Nat.lt_of_lt_of_le hl hp.length_le)) hl

/-- the wrapper made for the argument -/
def LinearArgument.object (st : Store) : LinearArgument → LinearObject
  | .multisegment r => ⟨.multisegment r, r⟩
  | .segment s => ⟨.segment s, st.length⟩

/-- the lists made for the argument -/
def LinearArgument.lists : LinearArgument → Store
  | .multisegment _ => []
  | .segment s => [.segments [s]]

/-- the wrapper made for the argument -/
def ShapedArgument.object (st : Store) : ShapedArgument → ShapedObject
  | .multipolygon r => ⟨.multipolygon r, r⟩
  | .polygon p => ⟨.polygon p, st.length⟩

/-- the lists made for the argument -/
def ShapedArgument.lists : ShapedArgument → Store
  | .multipolygon _ => []
  | .polygon p => [.polygons [p]]

/-- the list of the argument -/
def RegionArgument.object (st : Store) : RegionArgument → Ref
  | .multiregion r => r
  | .region _ => st.length

/-- the lists made for the argument -/
def RegionArgument.lists : RegionArgument → Store
  | .multiregion _ => []
  | .region c => [.regions [c]]

theorem run_linearObject {β : Type} (a : LinearArgument) (f : LinearObject → Prog β) :
    (linearObject a >>= f) st = f (a.object st) (st ++ a.lists) := by
  cases a with
  | segment s => rfl
  | multisegment r => simp only [LinearArgument.lists, List.append_nil]; rfl

theorem run_shapedObject {β : Type} (a : ShapedArgument) (f : ShapedObject → Prog β) :
    (shapedObject a >>= f) st = f (a.object st) (st ++ a.lists) := by
  cases a with
  | polygon p => rfl
  | multipolygon r => simp only [ShapedArgument.lists, List.append_nil]; rfl

theorem run_regionObject {β : Type} (a : RegionArgument) (f : Ref → Prog β) :
    (regionObject a >>= f) st = f (a.object st) (st ++ a.lists) := by
  cases a with
  | region c => rfl
  | multiregion r => simp only [RegionArgument.lists, List.append_nil]; rfl

theorem LinearArgument.object_lt (a : LinearArgument) (h : ∀ r ∈ a.refs, r < st.length) (more : Store) :
    (a.object st).segments < (st ++ a.lists ++ more).length := by
  cases a with
  | segment s => simp only [object, lists, List.length_append, List.length_singleton]; exact Nat.lt_add_right _ (Nat.lt_succ_self _)
  | multisegment r =>
    have := h r (by simp [LinearArgument.refs])
    simp only [object, lists, List.length_append, List.length_nil]; exact Nat.lt_add_right _ (Nat.lt_add_right _ this)

theorem ShapedArgument.object_lt (a : ShapedArgument) (h : ∀ r ∈ a.refs, r < st.length) (more : Store) :
    (a.object st).polygons < (st ++ a.lists ++ more).length := by
  cases a with
  | polygon s => simp only [object, lists, List.length_append, List.length_singleton]; exact Nat.lt_add_right _ (Nat.lt_succ_self _)
  | multipolygon r =>
    have := h r (by simp [ShapedArgument.refs])
    simp only [object, lists, List.length_append, List.length_nil]; exact Nat.lt_add_right _ (Nat.lt_add_right _ this)

theorem RegionArgument.object_lt (a : RegionArgument) (h : ∀ r ∈ a.refs, r < st.length) (more : Store) :
    a.object st < (st ++ a.lists ++ more).length := by
  cases a with
  | region s => simp only [object, lists, List.length_append, List.length_singleton]; exact Nat.lt_add_right _ (Nat.lt_succ_self _)
  | multiregion r =>
    have := h r (by simp [RegionArgument.refs])
    simp only [object, lists, List.length_append, List.length_nil]; exact Nat.lt_add_right _ (Nat.lt_add_right _ this)

theorem LinearArgument.object_refs (a : LinearArgument) : (a.object st).value.refs = a.refs := by cases a <;> rfl

theorem ShapedArgument.object_refs (a : ShapedArgument) : (a.object st).value.refs = a.refs := by cases a <;> rfl

theorem LinearArgument.operand_object (a : LinearArgument) (h : ∀ r ∈ a.refs, r < st.length) (more : Store) :
    (a.object st).operand (st ++ a.lists ++ more) = a.operand st := by
  cases a with
  | segment s => simp [LinearObject.operand, object, lists, Value.read, operand, segmentOperand, Store.segments]
  | multisegment r =>
    have := h r (by simp [LinearArgument.refs])
    simp only [LinearObject.operand, object, lists, Value.read, operand, multisegmentOperand, List.append_nil, segments_old this]

theorem ShapedArgument.operand_object (a : ShapedArgument) (h : ∀ r ∈ a.refs, r < st.length) (more : Store) :
    (a.object st).operand (st ++ a.lists ++ more) = a.operand st := by
  cases a with
  | polygon s => simp [ShapedObject.operand, object, lists, Value.read, operand, polygonOperand, Store.polygons]
  | multipolygon r =>
    have := h r (by simp [ShapedArgument.refs])
    simp only [ShapedObject.operand, object, lists, Value.read, operand, multipolygonOperand, List.append_nil, polygons_old this]

theorem RegionArgument.regions_object (a : RegionArgument) (h : ∀ r ∈ a.refs, r < st.length) (more : Store) :
    Store.regions (st ++ a.lists ++ more) (a.object st) = a.regions st := by
  cases a with
  | region s => simp [object, lists, regions, Store.regions]
  | multiregion r =>
    have := h r (by simp [RegionArgument.refs])
    simp only [object, lists, regions, List.append_nil, regions_old this]

/-- the operand is the same with more lists -/
theorem LinearArgument.operand_more (a : LinearArgument) (h : ∀ r ∈ a.refs, r < st.length) (more : Store) :
    a.operand (st ++ more) = a.operand st := by
  cases a with
  | segment s => rfl
  | multisegment r => simp only [operand, segments_old (h r (by simp [LinearArgument.refs]))]

theorem ShapedArgument.operand_more (a : ShapedArgument) (h : ∀ r ∈ a.refs, r < st.length) (more : Store) :
    a.operand (st ++ more) = a.operand st := by
  cases a with
  | polygon s => rfl
  | multipolygon r => simp only [operand, polygons_old (h r (by simp [ShapedArgument.refs]))]

theorem RegionArgument.regions_more (a : RegionArgument) (h : ∀ r ∈ a.refs, r < st.length) (more : Store) :
    a.regions (st ++ more) = a.regions st := by
  cases a with
  | region s => rfl
  | multiregion r => simp only [regions, regions_old (h r (by simp [RegionArgument.refs]))]

theorem more_lt {l : List Ref} (h : ∀ r ∈ l, r < st.length) (more : Store) : ∀ r ∈ l, r < (st ++ more).length := by
  intro r hr
  rw [List.length_append]
  exact Nat.lt_add_right _ (h r hr)

variable (orient : Orient) (B : Balancing) (tb : TieBreak)

theorem linearCompute_refines (k : Kind) (a b : LinearArgument) (ha : ∀ r ∈ a.refs, r < st.length) (hb : ∀ r ∈ b.refs, r < st.length)
    (hs : k = .difference → ∀ r ∈ a.refs, r ∈ shared) :
    Refines st shared ((do linearCompute tb k (← linearObject a) (← linearObject b) : Prog Value) st)
      (linearResult tb k (a.operand st) (b.operand st)) := by
  rw [run_linearObject, run_linearObject]
  have hb' := more_lt hb a.lists
  have e1 := a.operand_object ha b.lists
  have e2 := b.operand_object hb' []
  rw [b.operand_more hb, List.append_nil] at e2
  rw [← e1, ← e2]
  have l1 := a.object_lt ha b.lists
  have l2 := b.object_lt hb' []
  rw [List.append_nil] at l2
  refine Refines.weaken (shared' := shared) ?_ (prefix_two st a.lists b.lists) fun r hr _ => hr
  cases k with
  | completeIntersection => exact completeIntersection_refines tb l2
  | intersection => exact intersection_refines tb l2
  | difference =>
    refine difference_refines tb ⟨l1, fun r hr => ?_⟩
    rw [a.object_refs] at hr
    exact ⟨more_lt (more_lt ha _) _ r hr, hs rfl r hr⟩
  | symmetricDifference => exact symmetricDifference_refines tb l1 l2
  | union => exact union_refines tb l1 l2

theorem mixedCompute_refines (k : Kind) (a : LinearArgument) (b : ShapedArgument) (ha : ∀ r ∈ a.refs, r < st.length)
    (hb : ∀ r ∈ b.refs, r < st.length) (hs : k = .difference → ∀ r ∈ a.refs, r ∈ shared)
    (hu : k = .symmetricDifference ∨ k = .union → ∀ r ∈ a.refs ++ b.refs, r ∈ shared) :
    Refines st shared ((do mixedCompute orient tb k (← linearObject a) (← shapedObject b) : Prog Value) st)
      (mixedResult orient tb k (a.operand st) (b.operand st)) := by
  rw [run_linearObject, run_shapedObject]
  have hb' := more_lt hb a.lists
  have e1 := a.operand_object ha b.lists
  have e2 := b.operand_object hb' []
  rw [b.operand_more hb, List.append_nil] at e2
  rw [← e1, ← e2]
  have l1 := a.object_lt ha b.lists
  have l2 := b.object_lt hb' []
  rw [List.append_nil] at l2
  refine Refines.weaken (shared' := shared) ?_ (prefix_two st a.lists b.lists) fun r hr _ => hr
  have both : (∀ r ∈ a.refs ++ b.refs, r ∈ shared) → (a.object st).Ok (st ++ a.lists ++ b.lists) shared ∧
      (b.object (st ++ a.lists)).Ok (st ++ a.lists ++ b.lists) shared := fun hu => by
    refine ⟨⟨l1, fun r hr => ?_⟩, ⟨l2, fun r hr => ?_⟩⟩
    · rw [a.object_refs] at hr
      exact ⟨more_lt (more_lt ha _) _ r hr, hu r (List.mem_append_left _ hr)⟩
    · rw [b.object_refs] at hr
      exact ⟨more_lt (more_lt hb _) _ r hr, hu r (List.mem_append_right _ hr)⟩
  cases k with
  | completeIntersection => exact mixedCompleteIntersection_refines orient tb l2
  | intersection => exact mixedIntersection_refines orient tb l2
  | difference =>
    refine mixedDifference_refines orient tb ⟨l1, fun r hr => ?_⟩
    rw [a.object_refs] at hr
    exact ⟨more_lt (more_lt ha _) _ r hr, hs rfl r hr⟩
  | symmetricDifference => exact mixedUnion_refines orient tb (both (hu (.inl rfl))).1 (both (hu (.inl rfl))).2
  | union => exact mixedUnion_refines orient tb (both (hu (.inr rfl))).1 (both (hu (.inr rfl))).2

theorem holeyCompute_refines (k : Kind) (a b : ShapedArgument) (ha : ∀ r ∈ a.refs, r < st.length) (hb : ∀ r ∈ b.refs, r < st.length)
    (hs : k = .difference → ∀ r ∈ a.refs, r ∈ shared) :
    Refines st shared ((do holeyCompute orient tb k (← shapedObject a) (← shapedObject b) : Prog Value) st)
      (holeyResult orient tb k (a.operand st) (b.operand st)) := by
  rw [run_shapedObject, run_shapedObject]
  have hb' := more_lt hb a.lists
  have e1 := a.operand_object ha b.lists
  have e2 := b.operand_object hb' []
  rw [b.operand_more hb, List.append_nil] at e2
  rw [← e1, ← e2]
  have l1 := a.object_lt ha b.lists
  have l2 := b.object_lt hb' []
  rw [List.append_nil] at l2
  refine Refines.weaken (shared' := shared) ?_ (prefix_two st a.lists b.lists) fun r hr _ => hr
  cases k with
  | completeIntersection => exact holeyCompleteIntersection_refines orient tb l2
  | intersection => exact holeyIntersection_refines orient tb l2
  | difference =>
    refine holeyDifference_refines orient tb ⟨l1, fun r hr => ?_⟩
    rw [a.object_refs] at hr
    exact ⟨more_lt (more_lt ha _) _ r hr, hs rfl r hr⟩
  | symmetricDifference => exact holeySymmetricDifference_refines tb l1 l2
  | union => exact holeyUnion_refines tb l1 l2

theorem regions_refines {p : Ref → Ref → Prog Value} {x : List Contour → List Contour → Except Err Geometry}
    (hp : ∀ (st : Store) (first second : Ref), second < st.length → Refines st shared (p first second st) (x (st.regions first) (st.regions second)))
    (a b : RegionArgument) (ha : ∀ r ∈ a.refs, r < st.length) (hb : ∀ r ∈ b.refs, r < st.length) :
    Refines st shared ((do p (← regionObject a) (← regionObject b) : Prog Value) st) (x (a.regions st) (b.regions st)) := by
  rw [run_regionObject, run_regionObject]
  have hb' := more_lt hb a.lists
  have e1 := a.regions_object ha b.lists
  have e2 := b.regions_object hb' []
  rw [b.regions_more hb, List.append_nil] at e2
  rw [← e1, ← e2]
  have l2 := b.object_lt hb' []
  rw [List.append_nil] at l2
  exact Refines.weaken (shared' := shared) (hp _ _ _ l2) (prefix_two st a.lists b.lists) fun r hr _ => hr

/-- all lists of new objects are new -/
theorem fresh_eq (g : Geometry) : ∃ v st', fresh g st = .ok (v, st') ∧ v.read st' = g ∧ st <+: st' ∧
    ∀ r ∈ v.refs, r < st'.length ∧ st.length ≤ r := by
  induction g generalizing st with
  | empty => exact ⟨_, _, rfl, rfl, List.prefix_rfl, by simp [Value.refs]⟩
  | multipoint points => exact ⟨_, _, rfl, rfl, List.prefix_rfl, by simp [Value.refs]⟩
  | segment s => exact ⟨_, _, rfl, rfl, List.prefix_rfl, by simp [Value.refs]⟩
  | polygon p => exact ⟨_, _, rfl, rfl, List.prefix_rfl, by simp [Value.refs]⟩
  | multisegment l =>
    exact ⟨.multisegment st.length, st ++ [.segments l], rfl, congrArg Geometry.multisegment (segments_new _ _), List.prefix_append _ _,
      by simp [Value.refs]⟩
  | multipolygon l =>
    exact ⟨.multipolygon st.length, st ++ [.polygons l], rfl, congrArg Geometry.multipolygon (polygons_new _ _), List.prefix_append _ _,
      by simp [Value.refs]⟩
  | mix d l s ihd ihl ihs =>
    obtain ⟨v1, st1, e1, r1, p1, q1⟩ := ihd (st := st)
    obtain ⟨v2, st2, e2, r2, p2, q2⟩ := ihl (st := st1)
    obtain ⟨v3, st3, e3, r3, p3, q3⟩ := ihs (st := st2)
    refine ⟨.mix v1 v2 v3, st3, ?_, ?_, p1.trans (p2.trans p3), fun r hr => ?_⟩
    · show ((fresh d >>= fun d => fresh l >>= fun l => fresh s >>= fun s => pure (.mix d l s)) : Prog Value) st = _
      rw [run_of_eq e1, run_of_eq e2, run_of_eq e3]; rfl
    · have a1 : v1.read st3 = d := by
        obtain ⟨x, rfl⟩ := p2.trans p3
        rw [read_old (fun r hr => (q1 r hr).1), r1]
      have a2 : v2.read st3 = l := by
        obtain ⟨x, rfl⟩ := p3
        rw [read_old (fun r hr => (q2 r hr).1), r2]
      rw [Value.read, a1, a2, r3]
    · have n1 := p1.length_le
      have n2 := p2.length_le
      have n3 := p3.length_le
      simp only [Value.refs, List.mem_append] at hr
      rcases hr with (hr | hr) | hr
      · exact ⟨(q1 r hr).1.trans_le (n2.trans n3), (q1 r hr).2⟩
      · exact ⟨(q2 r hr).1.trans_le n3, n1.trans (q2 r hr).2⟩
      · exact ⟨(q3 r hr).1, (n1.trans n2).trans (q3 r hr).2⟩

theorem fresh_refines (g : Geometry) : Refines st shared (fresh g st) (.ok g) := by
  obtain ⟨v, st', e, hr, hp, hq⟩ := fresh_eq (st := st) g
  rw [e]
  exact ⟨congrArg Except.ok hr.symm, hp, fun r h => ⟨(hq r h).1, fun hl => absurd hl (Nat.not_lt.2 (hq r h).2)⟩⟩

theorem toMultisegment_refines (r : Ref) : Refines st shared ((Call.toMultisegment r).run orient B tb st) (segmentsToMultisegment B tb (st.segments r)) := by
  have e : segmentsToMultisegment B tb (st.segments r) = (mergeSegments B tb (st.segments r) >>= fun l => pure (unpackSegments l)) := by
    unfold segmentsToMultisegment
    cases mergeSegments B tb (st.segments r) <;> rfl
  rw [e]
  unfold Call.run
  simp only [run_readSegments]
  exact .calculate fun l => .newSegments List.prefix_rfl _

theorem call_refines' (c : Call) (h : ∀ r ∈ c.refs, r < st.length) :
    Refines st c.shared (c.run orient B tb st) (c.value orient B tb st) := by
  cases c with
  | segments k s t => exact fresh_refines _
  | segmentWithMultisegment k s r =>
    have hr : r < st.length := h r (by simp [Call.refs])
    have key : ∀ k, Refines st (Call.segmentWithMultisegment k s r).shared
        ((do linearCompute tb k (← linearObject (.segment s)) (← linearObject (.multisegment r)) : Prog Value) st)
        (linearResult tb k (segmentOperand s) (multisegmentOperand (st.segments r))) := fun k =>
      linearCompute_refines tb k (.segment s) (.multisegment r) (by simp [LinearArgument.refs]) (by simpa [LinearArgument.refs] using hr)
        (by simp [LinearArgument.refs])
    cases k with
    | completeIntersection => exact key _
    | intersection => exact intersectSegment_refines s hr
    | difference => exact key _
    | symmetricDifference => exact key _
    | union => exact uniteSegment_refines s hr
  | segmentFromMultisegment r s => exact subtractSegment_refines s (h r (by simp [Call.refs]))
  | multisegments k r r' =>
    refine linearCompute_refines tb k (.multisegment r) (.multisegment r') (fun x hx => h x ?_) (fun x hx => h x ?_) ?_
    · simp only [LinearArgument.refs, List.mem_singleton] at hx; simp [Call.refs, hx]
    · simp only [LinearArgument.refs, List.mem_singleton] at hx; simp [Call.refs, hx]
    · rintro rfl; simp [LinearArgument.refs, Call.shared]
  | toMultisegment r => exact toMultisegment_refines orient B tb r
  | mixed k a b =>
    refine mixedCompute_refines orient tb k a b (fun x hx => h x (List.mem_append_left _ hx)) (fun x hx => h x (List.mem_append_right _ hx)) ?_ ?_
    · rintro rfl r hr; exact hr
    · rintro (rfl | rfl) r hr <;> exact hr
  | intersectRegions a b =>
    exact regions_refines (fun st f s hs => holelessIntersection_refines orient tb hs) a b (fun x hx => h x (List.mem_append_left _ hx))
      (fun x hx => h x (List.mem_append_right _ hx))
  | completeIntersectRegions a b =>
    exact regions_refines (fun st f s hs => holelessCompleteIntersection_refines orient tb hs) a b (fun x hx => h x (List.mem_append_left _ hx))
      (fun x hx => h x (List.mem_append_right _ hx))
  | shaped k a b =>
    refine holeyCompute_refines orient tb k a b (fun x hx => h x (List.mem_append_left _ hx)) (fun x hx => h x (List.mem_append_right _ hx)) ?_
    rintro rfl r hr; exact hr

/-- the result for the operands is the same with more lists -/
theorem value_more (c : Call) (h : ∀ r ∈ c.refs, r < st.length) (more : Store) :
    c.value orient B tb (st ++ more) = c.value orient B tb st := by
  cases c with
  | segments k s t => rfl
  | segmentWithMultisegment k s r =>
    have e := segments_old (h r (by simp [Call.refs])) more
    cases k <;> simp only [Call.value, e]
  | segmentFromMultisegment r s => simp only [Call.value, segments_old (h r (by simp [Call.refs]))]
  | multisegments k r r' => simp only [Call.value, segments_old (h r (by simp [Call.refs])), segments_old (h r' (by simp [Call.refs]))]
  | toMultisegment r => simp only [Call.value, segments_old (h r (by simp [Call.refs]))]
  | mixed k a b =>
    simp only [Call.value, a.operand_more fun x hx => h x (List.mem_append_left _ hx), b.operand_more fun x hx => h x (List.mem_append_right _ hx)]
  | intersectRegions a b =>
    simp only [Call.value, a.regions_more fun x hx => h x (List.mem_append_left _ hx), b.regions_more fun x hx => h x (List.mem_append_right _ hx)]
  | completeIntersectRegions a b =>
    simp only [Call.value, a.regions_more fun x hx => h x (List.mem_append_left _ hx), b.regions_more fun x hx => h x (List.mem_append_right _ hx)]
  | shaped k a b =>
    simp only [Call.value, a.operand_more fun x hx => h x (List.mem_append_left _ hx), b.operand_more fun x hx => h x (List.mem_append_right _ hx)]

end Clipping.Objects

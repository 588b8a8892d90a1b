import Verif.Lemmas.Objects.Linear

/-!
# Operations on list objects do what the operations on values do: `mixed.py`, `holey.py`, `holeless.py`
-/

namespace Clipping.Objects

/-- a wrapper the lists of which are there -/
structure ShapedObject.Ok (st : Store) (shared : List Ref) (a : ShapedObject) : Prop where
  list : a.polygons < st.length
  value : ∀ r ∈ a.value.refs, r < st.length ∧ r ∈ shared

/-- the operand at the moment -/
def ShapedObject.operand (st : Store) (a : ShapedObject) : ShapedOperand := ⟨a.value.read st, st.polygons a.polygons⟩

variable {st : Store} {shared : List Ref} (orient : Orient)

section Mixed

variable {linear : LinearObject} {shaped : ShapedObject}

theorem mixedDifference_refines (tb : TieBreak) (h1 : linear.Ok st shared) :
    Refines st shared (mixedDifference orient tb linear shaped st)
      (Clipping.mixedDifference orient tb (linear.operand st) (shaped.operand st)) := by
  unfold mixedDifference Clipping.mixedDifference LinearObject.operand ShapedObject.operand
  simp only [run_readSegments]
  refine .calculate fun firstBox => ?_
  simp only [run_readPolygons]
  refine .calculate fun secondBox => .ite (.old' h1.value) ?_
  simp only [run_readPolygons, run_new, polygons_new]
  refine .ite (.old _ h1.value) ?_
  simp only [run_readSegments, segments_old h1.list]
  refine .calculate fun xmax => ?_
  simp only [run_readSegments, run_readPolygons, segments_old h1.list, polygons_new]
  refine .calculate fun ⟨h, events⟩ => ?_
  exact .newSegments (List.prefix_append _ _) _

theorem mixedIntersection_refines (tb : TieBreak) (h2 : shaped.polygons < st.length) :
    Refines st shared (mixedIntersection orient tb linear shaped st)
      (Clipping.mixedIntersection orient tb (linear.operand st) (shaped.operand st)) := by
  unfold mixedIntersection Clipping.mixedIntersection LinearObject.operand ShapedObject.operand
  simp only [run_readSegments]
  refine .calculate fun firstBox => ?_
  simp only [run_readPolygons]
  refine .calculate fun secondBox => .ite (.empty List.prefix_rfl) ?_
  simp only [run_readSegments, run_new, segments_new]
  refine .ite (.empty (List.prefix_append _ _)) ?_
  simp only [run_readPolygons, run_new, polygons_old h2, polygons_new]
  refine .ite (.empty (prefix_two _ _ _)) ?_
  simp only [run_readSegments, segments_new']
  refine .calculate fun x1 => ?_
  simp only [run_readPolygons, polygons_new]
  refine .calculate fun x2 => ?_
  simp only [run_readSegments, run_readPolygons, polygons_new, segments_new']
  refine .calculate fun ⟨h, events⟩ => ?_
  exact .newSegments (prefix_two _ _ _) _

theorem mixedCompleteIntersection_refines (tb : TieBreak) (h2 : shaped.polygons < st.length) :
    Refines st shared (mixedCompleteIntersection orient tb linear shaped st)
      (Clipping.mixedCompleteIntersection orient tb (linear.operand st) (shaped.operand st)) := by
  unfold mixedCompleteIntersection Clipping.mixedCompleteIntersection LinearObject.operand ShapedObject.operand
  simp only [run_readSegments]
  refine .calculate fun firstBox => ?_
  simp only [run_readPolygons]
  refine .calculate fun secondBox => .ite (.empty List.prefix_rfl) ?_
  simp only [run_readSegments, run_new, segments_new]
  refine .ite (.empty (List.prefix_append _ _)) ?_
  simp only [run_readPolygons, run_new, polygons_old h2, polygons_new]
  refine .ite (.empty (prefix_two _ _ _)) ?_
  simp only [run_readSegments, segments_new']
  refine .calculate fun x1 => ?_
  simp only [run_readPolygons, polygons_new]
  refine .calculate fun x2 => ?_
  simp only [run_readSegments, run_readPolygons, polygons_new, segments_new']
  refine .calculate fun ⟨h, events⟩ => ?_
  exact .linearMix (prefix_two _ _ _) _ _

theorem Refines.mixOld (new : Store) {v w : Value} (hv : ∀ r ∈ v.refs, r < st.length ∧ r ∈ shared)
    (hw : ∀ r ∈ w.refs, r < st.length ∧ r ∈ shared) :
    Refines st shared ((pure (.mix .empty v w) : Prog Value) (st ++ new)) (pure (.mix .empty (v.read st) (w.read st))) := by
  refine Refines.old (v := .mix .empty v w) new fun r hr => ?_
  simp only [Value.refs, List.nil_append, List.mem_append] at hr
  exact hr.elim (hv r) (hw r)

theorem polygons_two {r : Ref} (hr : r < st.length) (x y : Store) : Store.polygons (st ++ x ++ y) r = st.polygons r := by
  rw [List.append_assoc, polygons_old hr]

theorem segments_four (st : Store) (l : List Segment) (x y z : Store) : Store.segments (st ++ [.segments l] ++ x ++ y ++ z) st.length = l := by
  simp [Store.segments]

theorem mixedUnion_refines (tb : TieBreak) (h1 : linear.Ok st shared) (h2 : shaped.Ok st shared) :
    Refines st shared (mixedUnion orient tb linear shaped st)
      (Clipping.mixedUnion orient tb (linear.operand st) (shaped.operand st)) := by
  unfold mixedUnion Clipping.mixedUnion LinearObject.operand ShapedObject.operand
  simp only [run_readSegments]
  refine .calculate fun firstBox => ?_
  simp only [run_readPolygons]
  refine .calculate fun secondBox => .ite ?_ ?_
  · have := Refines.mixOld [] h1.value h2.value
    rwa [List.append_nil] at this
  simp only [run_readSegments, run_readPolygons, run_new, segments_old h1.list, polygons_two h2.list]
  simp only [segments_new', polygons_new]
  refine .calculate fun ⟨h, log⟩ => ?_
  simp only [run_new, run_readSegments, run_extendSegments, segments_four, run_unpackSegments, segments_new]
  generalize hl : resultSegments h (leftsOf log) ++ (splitIntersectingSegments secondBox (st.segments linear.segments)).1 = l
  generalize [PyList.segments (splitIntersectingSegments secondBox (st.segments linear.segments)).1] = a
  generalize [PyList.segments (splitIntersectingSegments secondBox (st.segments linear.segments)).2] = b
  generalize [PyList.polygons (toIntersectingPolygons orient firstBox (st.polygons shaped.polygons))] = c
  have hread := segmentsValue_read (st ++ a ++ b ++ c ++ [PyList.segments l]) (st ++ a ++ b ++ c).length l (segments_new _ _)
  have hold := read_old (fun r hr => (h2.value r hr).1) (a ++ (b ++ (c ++ [PyList.segments l])))
  simp only [List.append_assoc] at hread hold ⊢
  rw [← hread, isEmpty_read, ← hold]
  refine ⟨?_, List.prefix_append _ _, fun r hr => ?_⟩
  · split <;> rfl
  · split at hr
    · exact ⟨by rw [List.length_append]; exact Nat.lt_add_right _ (h2.value r hr).1, fun _ => (h2.value r hr).2⟩
    · simp only [Value.refs, List.nil_append, List.mem_append] at hr
      rcases hr with hr | hr
      · obtain rfl := segmentsValue_refs hr
        constructor
        · simp
        · intro g; simp at g
      · exact ⟨by rw [List.length_append]; exact Nat.lt_add_right _ (h2.value r hr).1, fun _ => (h2.value r hr).2⟩

end Mixed

section Holey

variable {first second : ShapedObject}

theorem holeyIntersection_refines (tb : TieBreak) (h2 : second.polygons < st.length) :
    Refines st shared (holeyIntersection orient tb first second st)
      (Clipping.holeyIntersection orient tb (first.operand st) (second.operand st)) := by
  unfold holeyIntersection Clipping.holeyIntersection ShapedObject.operand
  simp only [run_readPolygons]
  refine .calculate fun firstBox => ?_
  simp only [run_readPolygons]
  refine .calculate fun secondBox => .ite (.empty List.prefix_rfl) ?_
  simp only [run_readPolygons, run_new, polygons_new]
  refine .ite (.empty (List.prefix_append _ _)) ?_
  simp only [run_readPolygons, run_new, polygons_old h2, polygons_new]
  refine .ite (.empty (prefix_two _ _ _)) ?_
  simp only [run_readPolygons, polygons_new']
  refine .calculate fun x1 => ?_
  simp only [run_readPolygons, polygons_new]
  refine .calculate fun x2 => ?_
  simp only [run_readPolygons, polygons_new, polygons_new']
  refine .calculate fun ⟨h, events⟩ => ?_
  refine .calculate fun polygons => ?_
  exact .newPolygons (prefix_two _ _ _) _

theorem holeyDifference_refines (tb : TieBreak) (h1 : first.Ok st shared) :
    Refines st shared (holeyDifference orient tb first second st)
      (Clipping.holeyDifference orient tb (first.operand st) (second.operand st)) := by
  unfold holeyDifference Clipping.holeyDifference ShapedObject.operand
  simp only [run_readPolygons]
  refine .calculate fun firstBox => ?_
  simp only [run_readPolygons]
  refine .calculate fun secondBox => .ite (.old' h1.value) ?_
  simp only [run_readPolygons, run_new, polygons_new]
  refine .ite (.old _ h1.value) ?_
  simp only [run_readPolygons, polygons_old h1.list]
  refine .calculate fun xmax => ?_
  simp only [run_readPolygons, polygons_old h1.list, polygons_new]
  refine .calculate fun ⟨h, events⟩ => ?_
  refine .calculate fun polygons => ?_
  exact .newPolygons (List.prefix_append _ _) _

theorem allPolygons_refines (h1 : first.polygons < st.length) (h2 : second.polygons < st.length) :
    Refines st shared (allPolygons first second st)
      (pure (.multipolygon (sortPolygons (st.polygons first.polygons ++ st.polygons second.polygons)))) := by
  unfold allPolygons
  simp only [run_new, run_readPolygons, run_extendPolygons, run_sortPolygons, polygons_old h1, polygons_old h2, List.nil_append]
  have := Refines.multipolygon (st := st) (shared := shared) (r := st.length)
    (st' := st ++ [PyList.polygons (sortPolygons (st.polygons first.polygons ++ st.polygons second.polygons))]) (by simp) le_rfl
    (List.prefix_append _ _)
  rwa [polygons_new] at this

theorem holeySymmetricDifference_refines (tb : TieBreak) (h1 : first.polygons < st.length) (h2 : second.polygons < st.length) :
    Refines st shared (holeySymmetricDifference tb first second st)
      (Clipping.holeySymmetricDifference tb (first.operand st) (second.operand st)) := by
  unfold holeySymmetricDifference Clipping.holeySymmetricDifference ShapedObject.operand
  simp only [run_readPolygons]
  refine .calculate fun firstBox => ?_
  simp only [run_readPolygons]
  refine .calculate fun secondBox => .ite (allPolygons_refines h1 h2) ?_
  simp only [run_readPolygons]
  refine .calculate fun ⟨h, events⟩ => ?_
  refine .calculate fun polygons => ?_
  exact .newPolygons List.prefix_rfl _

theorem holeyUnion_refines (tb : TieBreak) (h1 : first.polygons < st.length) (h2 : second.polygons < st.length) :
    Refines st shared (holeyUnion tb first second st) (Clipping.holeyUnion tb (first.operand st) (second.operand st)) := by
  unfold holeyUnion Clipping.holeyUnion ShapedObject.operand
  simp only [run_readPolygons]
  refine .calculate fun firstBox => ?_
  simp only [run_readPolygons]
  refine .calculate fun secondBox => .ite (allPolygons_refines h1 h2) ?_
  simp only [run_readPolygons]
  refine .calculate fun ⟨h, events⟩ => ?_
  refine .calculate fun polygons => ?_
  exact .newPolygons List.prefix_rfl _

/-- three parts the lists of which are new -/
theorem Refines.mix {st' : Store} (hp : st <+: st') {v w x : Value} {g₁ g₂ g₃ : Geometry}
    (h : ∀ r, r ∈ v.refs ∨ r ∈ w.refs ∨ r ∈ x.refs → st.length ≤ r ∧ r < st'.length)
    (hv : v.read st' = g₁) (hw : w.read st' = g₂) (hx : x.read st' = g₃) :
    Refines st shared ((pure (unpackMixValue v w x) : Prog Value) st') (pure (unpackMix g₁ g₂ g₃)) := by
  subst hv hw hx
  refine ⟨congrArg Except.ok (unpackMixValue_read _ _ _).symm, hp, fun r hr => ?_⟩
  have := h r (unpackMixValue_refs hr)
  exact ⟨this.2, fun g => absurd g (Nat.not_lt.2 this.1)⟩

theorem holeyCompleteIntersection_refines (tb : TieBreak) (h2 : second.polygons < st.length) :
    Refines st shared (holeyCompleteIntersection orient tb first second st)
      (Clipping.holeyCompleteIntersection orient tb (first.operand st) (second.operand st)) := by
  unfold holeyCompleteIntersection Clipping.holeyCompleteIntersection ShapedObject.operand
  simp only [run_readPolygons]
  refine .calculate fun firstBox => ?_
  simp only [run_readPolygons]
  refine .calculate fun secondBox => .ite (.empty List.prefix_rfl) ?_
  simp only [run_readPolygons, run_new, polygons_new]
  refine .ite (.empty (List.prefix_append _ _)) ?_
  simp only [run_readPolygons, run_new, polygons_old h2, polygons_new]
  refine .ite (.empty (prefix_two _ _ _)) ?_
  simp only [run_readPolygons, polygons_new']
  refine .calculate fun x1 => ?_
  simp only [run_readPolygons, polygons_new]
  refine .calculate fun x2 => ?_
  simp only [run_readPolygons, polygons_new, polygons_new']
  refine .calculate fun ⟨h, events⟩ => ?_
  simp only [run_new]
  refine .calculate fun polygons => ?_
  simp only [run_new, run_unpackSegments, run_unpackPolygons, polygons_new, segments_new']
  refine .mix ((prefix_two _ _ _).trans (prefix_two _ _ _)) ?_ (unpackPointsValue_read _) (segmentsValue_read _ _ _ (segments_new' _ _ _))
    (polygonsValue_read _ _ _ (polygons_new _ _))
  rintro r (hr | hr | hr)
  · rw [unpackPointsValue_refs] at hr; simp at hr
  · obtain rfl := segmentsValue_refs hr
    constructor <;> simp <;> omega
  · obtain rfl := polygonsValue_refs hr
    constructor <;> simp <;> omega

end Holey

section Holeless

/-- what `unpack_regions` gives -/
def regionsValue (regions : List Contour) (r : Ref) : Value := match regions with
  | [] => .empty
  | [c] => .polygon ⟨c, []⟩
  | _ :: _ :: _ => .multipolygon r

/-- the lists made by `unpack_regions` -/
def regionsLists (regions : List Contour) : Store := match regions with
  | [] => []
  | [_] => []
  | c :: d :: rest => [.polygons ((c :: d :: rest).map fun c => ⟨c, []⟩)]

theorem run_unpackRegions {β : Type} (regions : List Contour) (f : Value → Prog β) :
    (unpackRegionsList regions >>= f) st = f (regionsValue regions st.length) (st ++ regionsLists regions) := by
  match regions with
  | [] => simp only [regionsLists, List.append_nil]; rfl
  | [_] => simp only [regionsLists, List.append_nil]; rfl
  | _ :: _ :: _ => rfl

theorem regionsValue_read (regions : List Contour) :
    (regionsValue regions st.length).read (st ++ regionsLists regions) = unpackRegions regions := by
  match regions with
  | [] => rfl
  | [_] => rfl
  | _ :: _ :: _ => exact congrArg Geometry.multipolygon (polygons_new _ _)

theorem regionsValue_refs {regions : List Contour} {r r' : Ref} (h : r' ∈ (regionsValue regions r).refs) :
    r' = r ∧ (regionsLists regions).length = 1 := by
  match regions, h with
  | [], h => simp [regionsValue, Value.refs] at h
  | [_], h => simp [regionsValue, Value.refs] at h
  | _ :: _ :: _, h => exact ⟨by simpa [regionsValue, Value.refs] using h, rfl⟩

variable {first second : Ref}

theorem holelessIntersection_refines (tb : TieBreak) (h2 : second < st.length) :
    Refines st shared (holelessIntersection orient tb first second st)
      (Clipping.holelessIntersection orient tb (st.regions first) (st.regions second)) := by
  unfold holelessIntersection Clipping.holelessIntersection
  simp only [run_readRegions]
  refine .calculate fun firstBox => ?_
  simp only [run_readRegions]
  refine .calculate fun secondBox => .ite (.empty List.prefix_rfl) ?_
  simp only [run_readRegions, run_new, regions_new]
  refine .ite (.empty (List.prefix_append _ _)) ?_
  simp only [run_readRegions, run_new, regions_old h2, regions_new]
  refine .ite (.empty (prefix_two _ _ _)) ?_
  simp only [run_readRegions, regions_new, regions_new']
  refine .calculate fun ⟨h, events⟩ => ?_
  refine .calculate fun regions => ?_
  have key := run_unpackRegions (st := st ++ [PyList.regions (toCoupledRegions orient secondBox (st.regions first))] ++
    [PyList.regions (toCoupledRegions orient firstBox (st.regions second))]) regions (pure : Value → Prog Value)
  rw [bind_pure] at key
  rw [key]
  refine ⟨congrArg Except.ok (regionsValue_read _).symm, (prefix_two _ _ _).trans (List.prefix_append _ _), fun r hr => ?_⟩
  obtain ⟨rfl, hl⟩ := regionsValue_refs hr
  constructor
  · simp [hl]
  · intro g; simp at g

theorem holelessCompleteIntersection_refines (tb : TieBreak) (h2 : second < st.length) :
    Refines st shared (holelessCompleteIntersection orient tb first second st)
      (Clipping.holelessCompleteIntersection orient tb (st.regions first) (st.regions second)) := by
  unfold holelessCompleteIntersection Clipping.holelessCompleteIntersection
  simp only [run_readRegions]
  refine .calculate fun firstBox => ?_
  simp only [run_readRegions]
  refine .calculate fun secondBox => .ite (.empty List.prefix_rfl) ?_
  simp only [run_readRegions, run_new, regions_new]
  refine .ite (.empty (List.prefix_append _ _)) ?_
  simp only [run_readRegions, run_new, regions_old h2, regions_new]
  refine .ite (.empty (prefix_two _ _ _)) ?_
  simp only [run_readRegions, regions_new, regions_new']
  refine .calculate fun ⟨h, events⟩ => ?_
  simp only [run_new]
  refine .calculate fun regions => ?_
  simp only [run_unpackRegions, run_unpackSegments, segments_new']
  refine .mix ((prefix_two _ _ _).trans (prefix_two _ _ _)) ?_ (unpackPointsValue_read _) (segmentsValue_read _ _ _ (segments_new' _ _ _))
    (regionsValue_read _)
  rintro r (hr | hr | hr)
  · rw [unpackPointsValue_refs] at hr; simp at hr
  · obtain rfl := segmentsValue_refs hr
    constructor <;> simp
  · obtain ⟨rfl, hl⟩ := regionsValue_refs hr
    constructor <;> simp [hl]

end Holeless

end Clipping.Objects

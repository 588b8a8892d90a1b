import Verif.Model.PlanarShaped
import Verif.Model.PlanarMixed
import Verif.Model.Planar

/-!
# Python objects: the operations with mutable lists which may be shared

The other modules model lists by their values.  Here lists are objects with an identity: operands and results refer to them,
several geometries may refer to the same list, and some statements of the code change lists (`+=`, `sort`, `append`, `extend`).
The sweeps read the lists of their operands and make new lists, they are taken over from the other modules.

Simplifications: the operand wrappers of `operands.py` are made by each call for itself, no other object refers to them, so that
the assignments to their attributes (`self.first.segments = ...`) are modelled by local variables.  Polygons and multipoints are values: their lists
are made together with them and no statement changes them later.
-/

namespace Clipping.Objects

/-- a Python list which the code passes on by reference -/
inductive PyList
  | segments (l : List Segment)
  | polygons (l : List Polygon)
  | regions (l : List Contour)
deriving Repr, DecidableEq

/-- all list objects, in the order in which they were made -/
abbrev Store := List PyList

/-- identity of a list object -/
abbrev Ref := Nat

/-- the segments in the list -/
def Store.segments (st : Store) (r : Ref) : List Segment := match st[r]? with
  | some (.segments l) => l
  | _ => []

/-- the polygons in the list -/
def Store.polygons (st : Store) (r : Ref) : List Polygon := match st[r]? with
  | some (.polygons l) => l
  | _ => []

/-- the regions in the list -/
def Store.regions (st : Store) (r : Ref) : List Contour := match st[r]? with
  | some (.regions l) => l
  | _ => []

/-- geometries as objects: multisegments and multipolygons refer to lists -/
inductive Value
  | empty
  | multipoint (points : List Point)
  | segment (s : Segment)
  | multisegment (segments : Ref)
  | polygon (p : Polygon)
  | multipolygon (polygons : Ref)
  | mix (discrete linear shaped : Value)
deriving Repr, DecidableEq

/-- what the object looks like at the moment -/
def Value.read (st : Store) : Value → Geometry
  | .empty => .empty
  | .multipoint points => .multipoint points
  | .segment s => .segment s
  | .multisegment r => .multisegment (st.segments r)
  | .polygon p => .polygon p
  | .multipolygon r => .multipolygon (st.polygons r)
  | .mix d l s => .mix (d.read st) (l.read st) (s.read st)

/-- the lists which the object refers to -/
def Value.refs : Value → List Ref
  | .multisegment r => [r]
  | .multipolygon r => [r]
  | .mix d l s => d.refs ++ l.refs ++ s.refs
  | _ => []

/-- code which may make and change list objects -/
abbrev Prog (α : Type) := StateT Store (Except Err) α

/-- A new list object. -/
def new (l : PyList) : Prog Ref := fun st => .ok (st.length, st ++ [l])

/-- reading a list -/
def readSegments (r : Ref) : Prog (List Segment) := fun st => .ok (st.segments r, st)

/-- reading a list -/
def readPolygons (r : Ref) : Prog (List Polygon) := fun st => .ok (st.polygons r, st)

/-- reading a list -/
def readRegions (r : Ref) : Prog (List Contour) := fun st => .ok (st.regions r, st)

/-- `segments += l`, `segments.extend(l)`: the list object is changed. -/
def extendSegments (r : Ref) (l : List Segment) : Prog Unit := fun st => .ok ((), st.modify r fun x => match x with
  | .segments l' => .segments (l' ++ l)
  | x => x)

/-- `segments.append(s)` -/
def appendSegment (r : Ref) (s : Segment) : Prog Unit := extendSegments r [s]

/-- `segments.sort(key=to_endpoints)`: the list object is changed. -/
def sortSegmentsInPlace (r : Ref) : Prog Unit := fun st => .ok ((), st.modify r fun x => match x with
  | .segments l => .segments (sortEndpoints l)
  | x => x)

/-- `polygons += l` -/
def extendPolygons (r : Ref) (l : List Polygon) : Prog Unit := fun st => .ok ((), st.modify r fun x => match x with
  | .polygons l' => .polygons (l' ++ l)
  | x => x)

/-- `polygons.sort(key=to_first_border_vertex)` -/
def sortPolygonsInPlace (r : Ref) : Prog Unit := fun st => .ok ((), st.modify r fun x => match x with
  | .polygons l => .polygons (sortPolygons l)
  | x => x)

/-- something which neither makes nor changes lists -/
def calculate {α : Type} (x : Except Err α) : Prog α := fun st => match x with
  | .error e => .error e
  | .ok a => .ok (a, st)

/-! ## `unpacking.py` -/

/-- `unpack_segments` (core/unpacking.py:72-78): the multisegment refers to the given list itself. -/
def unpackSegmentsList (r : Ref) : Prog Value := do
  match ← readSegments r with
  | [] => return .empty
  | [s] => return .segment s
  | _ :: _ :: _ => return .multisegment r

/-- `unpack_polygons` (core/unpacking.py:52-58) -/
def unpackPolygonsList (r : Ref) : Prog Value := do
  match ← readPolygons r with
  | [] => return .empty
  | [p] => return .polygon p
  | _ :: _ :: _ => return .multipolygon r

/-- `unpack_regions` (core/unpacking.py:61-69): the list of polygons is a new one. -/
def unpackRegionsList (regions : List Contour) : Prog Value := do
  match regions with
  | [] => return .empty
  | [c] => return .polygon ⟨c, []⟩
  | c :: d :: rest => return .multipolygon (← new (.polygons ((c :: d :: rest).map fun c => ⟨c, []⟩)))

/-- `unpack_points` (core/unpacking.py:47-49) -/
def unpackPointsValue (points : List Point) : Value := match points with
  | [] => .empty
  | p :: rest => .multipoint (p :: rest)

/-- `value is context.empty` -/
def Value.isEmpty : Value → Bool
  | .empty => true
  | _ => false

/-- `unpack_linear_mix` (core/unpacking.py:19-27) -/
def unpackLinearMixValue (discrete linear : Value) : Value :=
  if discrete.isEmpty then linear
  else if linear.isEmpty then discrete
  else .mix discrete linear .empty

/-- `unpack_mix` (core/unpacking.py:30-44) -/
def unpackMixValue (discrete linear shaped : Value) : Value :=
  if discrete.isEmpty then
    (if linear.isEmpty then shaped
     else if shaped.isEmpty then linear
     else .mix discrete linear shaped)
  else
    (if shaped.isEmpty && linear.isEmpty then discrete
     else .mix discrete linear shaped)

/-! ## `operands.py` -/

/-- segments and multisegments -/
inductive LinearArgument
  | segment (s : Segment)
  | multisegment (r : Ref)

/-- polygons and multipolygons -/
inductive ShapedArgument
  | polygon (p : Polygon)
  | multipolygon (r : Ref)

/-- `LinearOperand` (core/operands.py:15-21) -/
structure LinearObject where
  value : Value
  segments : Ref

/-- `MultisegmentOperand` (core/operands.py:24-32): the list of the multisegment itself.  `SegmentOperand`
(core/operands.py:35-43): a new list. -/
def linearObject : LinearArgument → Prog LinearObject
  | .multisegment r => return ⟨.multisegment r, r⟩
  | .segment s => do return ⟨.segment s, ← new (.segments [s])⟩

/-- `HoleyOperand` (core/operands.py:80-86) -/
structure ShapedObject where
  value : Value
  polygons : Ref

/-- `MultipolygonOperand` (core/operands.py:89-99): the list of the multipolygon itself.  `PolygonOperand`
(core/operands.py:102-113): a new list. -/
def shapedObject : ShapedArgument → Prog ShapedObject
  | .multipolygon r => return ⟨.multipolygon r, r⟩
  | .polygon p => do return ⟨.polygon p, ← new (.polygons [p])⟩

/-- regions are contours, multiregions are lists of them -/
inductive RegionArgument
  | region (c : Contour)
  | multiregion (r : Ref)

/-- `MultiregionOperand` (core/operands.py:55-65): the list itself.  `RegionOperand` (core/operands.py:68-77): a new list. -/
def regionObject : RegionArgument → Prog Ref
  | .region c => new (.regions [c])
  | .multiregion r => return r

/-! ## `linear.py` -/

/-- `Difference.compute` (core/linear.py:148-173) -/
def difference (tb : TieBreak) (first second : LinearObject) : Prog Value := do
  let firstBox ← calculate (boxOf (← readSegments first.segments))
  let secondBox ← calculate (boxOf (← readSegments second.segments))
  if disjointWith firstBox secondBox then return first.value
  let segments ← new (.segments (toCoupledSegments firstBox (← readSegments second.segments)))
  if (← readSegments segments).isEmpty then return first.value
  let xmax ← calculate (maxXOf (← readSegments first.segments))
  let (h, events) ← calculate (linearSweep tb (some xmax) (← readSegments first.segments) (← readSegments segments))
  unpackSegmentsList (← new (.segments (selectSegments (fun fs => fs.all fun f => f) h events)))

/-- `Intersection.compute` (core/linear.py:193-210) -/
def intersection (tb : TieBreak) (first second : LinearObject) : Prog Value := do
  let firstBox ← calculate (boxOf (← readSegments first.segments))
  let secondBox ← calculate (boxOf (← readSegments second.segments))
  if disjointWith firstBox secondBox then return .empty
  let firstSegments ← new (.segments (toCoupledSegments secondBox (← readSegments first.segments)))
  if (← readSegments firstSegments).isEmpty then return .empty
  let secondSegments ← new (.segments (toCoupledSegments firstBox (← readSegments second.segments)))
  if (← readSegments secondSegments).isEmpty then return .empty
  let xmax₁ ← calculate (maxXOf (← readSegments firstSegments))
  let xmax₂ ← calculate (maxXOf (← readSegments secondSegments))
  let (h, events) ← calculate (linearSweep tb (some (min xmax₁ xmax₂)) (← readSegments firstSegments) (← readSegments secondSegments))
  unpackSegmentsList (← new (.segments (selectSegments (fun fs => !allEqual fs) h events)))

/-- the list of both operands (core/linear.py:298-302, 320-324): a new list which is extended and sorted -/
def allSegments (first second : LinearObject) : Prog Value := do
  let segments ← new (.segments [])
  extendSegments segments (← readSegments first.segments)
  extendSegments segments (← readSegments second.segments)
  sortSegmentsInPlace segments
  return .multisegment segments

/-- `SymmetricDifference.compute` (core/linear.py:294-310) -/
def symmetricDifference (tb : TieBreak) (first second : LinearObject) : Prog Value := do
  let firstBox ← calculate (boxOf (← readSegments first.segments))
  let secondBox ← calculate (boxOf (← readSegments second.segments))
  if disjointWith firstBox secondBox then allSegments first second
  else
    let (h, events) ← calculate (linearSweep tb none (← readSegments first.segments) (← readSegments second.segments))
    unpackSegmentsList (← new (.segments (selectSegments allEqual h events)))

/-- `Union.compute` (core/linear.py:316-329) -/
def union (tb : TieBreak) (first second : LinearObject) : Prog Value := do
  let firstBox ← calculate (boxOf (← readSegments first.segments))
  let secondBox ← calculate (boxOf (← readSegments second.segments))
  if disjointWith firstBox secondBox then allSegments first second
  else
    let (h, events) ← calculate (linearSweep tb none (← readSegments first.segments) (← readSegments second.segments))
    return .multisegment (← new (.segments (selectSegments (fun _ => true) h events)))

/-- `CompleteIntersection.compute` (core/linear.py:236-272) -/
def completeIntersection (tb : TieBreak) (first second : LinearObject) : Prog Value := do
  let firstBox ← calculate (boxOf (← readSegments first.segments))
  let secondBox ← calculate (boxOf (← readSegments second.segments))
  if disjointWith firstBox secondBox then return .empty
  let firstSegments ← new (.segments (toIntersectingSegments secondBox (← readSegments first.segments)))
  if (← readSegments firstSegments).isEmpty then return .empty
  let secondSegments ← new (.segments (toIntersectingSegments firstBox (← readSegments second.segments)))
  if (← readSegments secondSegments).isEmpty then return .empty
  let xmax₁ ← calculate (maxXOf (← readSegments firstSegments))
  let xmax₂ ← calculate (maxXOf (← readSegments secondSegments))
  let (h, events) ← calculate (linearSweepAll tb (min xmax₁ xmax₂) (← readSegments firstSegments) (← readSegments secondSegments))
  let sorted := events.insertionSort fun e f => endpointsLe (evEndpoints h e) (evEndpoints h f)
  let (points, segments) := commonParts h (groupRuns h.evStart sorted)
  return unpackLinearMixValue (unpackPointsValue points) (← unpackSegmentsList (← new (.segments segments)))

/-- the loop of `_intersect_segment_with_multisegment` (core/linear.py:444-456) over the rest of the segments -/
def intersectLoop (segment : Segment) (result : Ref) : List Segment → Prog Unit
  | [] => return ()
  | sub :: rest => do
    match segmentsRelation segment sub with
    | .disjoint | .touch | .cross => pure ()
    | .equal | .component => appendSegment result segment
    | .composite => appendSegment result sub
    | .overlap => appendSegment result (intersectSegmentsOverlap segment sub)
    intersectLoop segment result rest

/-- `intersect_segment_with_multisegment` (core/linear.py:410-417, 440-457) -/
def intersectSegment (segment : Segment) (multisegment : Ref) : Prog Value := do
  let result ← new (.segments [])
  intersectLoop segment result (← readSegments multisegment)
  unpackSegmentsList result

/-- the loop of `_subtract_segment_from_multisegment` (core/linear.py:465-497) over the rest of the segments -/
def subtractLoop (segment : Segment) (result : Ref) : List Segment → Prog Unit
  | [] => return ()
  | sub :: rest => do
    match segmentsRelation segment sub with
    | .equal => extendSegments result rest
    | .component =>
      extendSegments result (subtractComponentPieces sub segment)
      extendSegments result rest
    | .cross =>
      let crossPoint := segmentsIntersection sub segment
      appendSegment result ⟨sub.start, crossPoint⟩
      appendSegment result ⟨crossPoint, sub.stop⟩
      subtractLoop segment result rest
    | .overlap =>
      appendSegment result (subtractSegmentsOverlap sub segment)
      subtractLoop segment result rest
    | .composite => subtractLoop segment result rest
    | .disjoint | .touch =>
      appendSegment result sub
      subtractLoop segment result rest

/-- `_subtract_segment_from_multisegment` (core/linear.py:460-498) -/
def subtractedList (multisegment : Ref) (segment : Segment) : Prog Ref := do
  let result ← new (.segments [])
  subtractLoop segment result (← readSegments multisegment)
  return result

/-- `subtract_segment_from_multisegment` (core/linear.py:420-427) -/
def subtractSegment (multisegment : Ref) (segment : Segment) : Prog Value := do
  unpackSegmentsList (← subtractedList multisegment segment)

/-- `unite_segment_with_multisegment` (core/linear.py:430-437) -/
def uniteSegment (segment : Segment) (multisegment : Ref) : Prog Value := do
  let segments ← subtractedList multisegment segment
  appendSegment segments segment
  unpackSegmentsList segments

/-! ## `mixed.py` -/

variable (orient : Orient)

/-- `Difference.compute` (core/mixed.py:122-138) -/
def mixedDifference (tb : TieBreak) (linear : LinearObject) (shaped : ShapedObject) : Prog Value := do
  let segmentsBox ← calculate (boxOf (← readSegments linear.segments))
  let shapedBox ← calculate (polygonsBox (← readPolygons shaped.polygons))
  if disjointWith segmentsBox shapedBox then return linear.value
  let polygons ← new (.polygons (toCoupledPolygons orient segmentsBox (← readPolygons shaped.polygons)))
  if (← readPolygons polygons).isEmpty then return linear.value
  let xmax ← calculate (maxXOf (← readSegments linear.segments))
  let (h, log) ← calculate (mixedSweep selectOutside tb (some xmax) (← readSegments linear.segments) (← readPolygons polygons))
  unpackSegmentsList (← new (.segments (resultSegments h (rightsOf log))))

/-- `Intersection.compute` (core/mixed.py:219-235) -/
def mixedIntersection (tb : TieBreak) (linear : LinearObject) (shaped : ShapedObject) : Prog Value := do
  let linearBox ← calculate (boxOf (← readSegments linear.segments))
  let shapedBox ← calculate (polygonsBox (← readPolygons shaped.polygons))
  if disjointWith linearBox shapedBox then return .empty
  let segments ← new (.segments (toIntersectingSegments shapedBox (← readSegments linear.segments)))
  if (← readSegments segments).isEmpty then return .empty
  let polygons ← new (.polygons (toIntersectingPolygons orient linearBox (← readPolygons shaped.polygons)))
  if (← readPolygons polygons).isEmpty then return .empty
  let xmax₁ ← calculate (maxXOf (← readSegments segments))
  let xmax₂ ← calculate (polygonsMaxX (← readPolygons polygons))
  let (h, log) ← calculate (mixedSweep selectInside tb (some (min xmax₁ xmax₂)) (← readSegments segments) (← readPolygons polygons))
  unpackSegmentsList (← new (.segments (resultSegments h (leftsOf log))))

/-- `CompleteIntersection.compute` (core/mixed.py:162-193) -/
def mixedCompleteIntersection (tb : TieBreak) (linear : LinearObject) (shaped : ShapedObject) : Prog Value := do
  let linearBox ← calculate (boxOf (← readSegments linear.segments))
  let shapedBox ← calculate (polygonsBox (← readPolygons shaped.polygons))
  if disjointWith linearBox shapedBox then return .empty
  let segments ← new (.segments (toIntersectingSegments shapedBox (← readSegments linear.segments)))
  if (← readSegments segments).isEmpty then return .empty
  let polygons ← new (.polygons (toIntersectingPolygons orient linearBox (← readPolygons shaped.polygons)))
  if (← readPolygons polygons).isEmpty then return .empty
  let xmax₁ ← calculate (maxXOf (← readSegments segments))
  let xmax₂ ← calculate (polygonsMaxX (← readPolygons polygons))
  let (h, log) ← calculate (mixedSweep selectInside tb (some (min xmax₁ xmax₂)) (← readSegments segments) (← readPolygons polygons))
  let events := (log.map Prod.fst).insertionSort fun e f => queueLt h f e = false
  let points := commonPoints h (groupRuns h.evStart events)
  let lefts := events.filterMap fun e => match e with | .left i => some i | .right _ => none
  return unpackLinearMixValue (unpackPointsValue points) (← unpackSegmentsList (← new (.segments (resultSegments h lefts))))

/-- `Union.compute` and `SymmetricDifference.compute` (core/mixed.py:259-279,299) -/
def mixedUnion (tb : TieBreak) (linear : LinearObject) (shaped : ShapedObject) : Prog Value := do
  let linearBox ← calculate (boxOf (← readSegments linear.segments))
  let shapedBox ← calculate (polygonsBox (← readPolygons shaped.polygons))
  if disjointWith linearBox shapedBox then return .mix .empty linear.value shaped.value
  let rest ← new (.segments (splitIntersectingSegments shapedBox (← readSegments linear.segments)).1)
  let segments ← new (.segments (splitIntersectingSegments shapedBox (← readSegments linear.segments)).2)
  let polygons ← new (.polygons (toIntersectingPolygons orient linearBox (← readPolygons shaped.polygons)))
  let (h, log) ← calculate (mixedSweep selectOutside tb none (← readSegments segments) (← readPolygons polygons))
  let result ← new (.segments (resultSegments h (leftsOf log)))
  extendSegments result (← readSegments rest)
  let linear ← unpackSegmentsList result
  return if linear.isEmpty then shaped.value else .mix .empty linear shaped.value

/-! ## `holey.py` -/

/-- `Intersection.compute` (core/holey.py:330-346) -/
def holeyIntersection (tb : TieBreak) (first second : ShapedObject) : Prog Value := do
  let firstBox ← calculate (polygonsBox (← readPolygons first.polygons))
  let secondBox ← calculate (polygonsBox (← readPolygons second.polygons))
  if disjointWith firstBox secondBox then return .empty
  let firstPolygons ← new (.polygons (toCoupledPolygons orient secondBox (← readPolygons first.polygons)))
  if (← readPolygons firstPolygons).isEmpty then return .empty
  let secondPolygons ← new (.polygons (toCoupledPolygons orient firstBox (← readPolygons second.polygons)))
  if (← readPolygons secondPolygons).isEmpty then return .empty
  let xmax₁ ← calculate (polygonsMaxX (← readPolygons firstPolygons))
  let xmax₂ ← calculate (polygonsMaxX (← readPolygons secondPolygons))
  let (h, events) ← calculate (holeySweep intersectionRule tb (some (min xmax₁ xmax₂)) (← readPolygons firstPolygons)
    (← readPolygons secondPolygons))
  unpackPolygonsList (← new (.polygons (← calculate (eventsToPolygons h events))))

/-- `Difference.compute` (core/holey.py:287-298) -/
def holeyDifference (tb : TieBreak) (first second : ShapedObject) : Prog Value := do
  let firstBox ← calculate (polygonsBox (← readPolygons first.polygons))
  let secondBox ← calculate (polygonsBox (← readPolygons second.polygons))
  if disjointWith firstBox secondBox then return first.value
  let secondPolygons ← new (.polygons (toCoupledPolygons orient firstBox (← readPolygons second.polygons)))
  if (← readPolygons secondPolygons).isEmpty then return first.value
  let xmax ← calculate (polygonsMaxX (← readPolygons first.polygons))
  let (h, events) ← calculate (holeySweep differenceRule tb (some xmax) (← readPolygons first.polygons) (← readPolygons secondPolygons))
  unpackPolygonsList (← new (.polygons (← calculate (eventsToPolygons h events))))

/-- the list of both operands (core/holey.py:383-387, 401-405): a new list which is extended and sorted -/
def allPolygons (first second : ShapedObject) : Prog Value := do
  let polygons ← new (.polygons [])
  extendPolygons polygons (← readPolygons first.polygons)
  extendPolygons polygons (← readPolygons second.polygons)
  sortPolygonsInPlace polygons
  return .multipolygon polygons

/-- `SymmetricDifference.compute` (core/holey.py:379-388) -/
def holeySymmetricDifference (tb : TieBreak) (first second : ShapedObject) : Prog Value := do
  let firstBox ← calculate (polygonsBox (← readPolygons first.polygons))
  let secondBox ← calculate (polygonsBox (← readPolygons second.polygons))
  if disjointWith firstBox secondBox then allPolygons first second
  else
    let (h, events) ← calculate (holeySweep symmetricDifferenceRule tb none (← readPolygons first.polygons) (← readPolygons second.polygons))
    unpackPolygonsList (← new (.polygons (← calculate (eventsToPolygons h events))))

/-- `Union.compute` (core/holey.py:397-406) -/
def holeyUnion (tb : TieBreak) (first second : ShapedObject) : Prog Value := do
  let firstBox ← calculate (polygonsBox (← readPolygons first.polygons))
  let secondBox ← calculate (polygonsBox (← readPolygons second.polygons))
  if disjointWith firstBox secondBox then allPolygons first second
  else
    let (h, events) ← calculate (holeySweep unionRule tb none (← readPolygons first.polygons) (← readPolygons second.polygons))
    unpackPolygonsList (← new (.polygons (← calculate (eventsToPolygons h events))))

/-- `CompleteIntersection.compute` (core/holey.py:216-254) -/
def holeyCompleteIntersection (tb : TieBreak) (first second : ShapedObject) : Prog Value := do
  let firstBox ← calculate (polygonsBox (← readPolygons first.polygons))
  let secondBox ← calculate (polygonsBox (← readPolygons second.polygons))
  if disjointWith firstBox secondBox then return .empty
  let firstPolygons ← new (.polygons (toIntersectingPolygons orient secondBox (← readPolygons first.polygons)))
  if (← readPolygons firstPolygons).isEmpty then return .empty
  let secondPolygons ← new (.polygons (toIntersectingPolygons orient firstBox (← readPolygons second.polygons)))
  if (← readPolygons secondPolygons).isEmpty then return .empty
  let xmax₁ ← calculate (polygonsMaxX (← readPolygons firstPolygons))
  let xmax₂ ← calculate (polygonsMaxX (← readPolygons secondPolygons))
  let (h, events) ← calculate (holeySweep intersectionRule tb (some (min xmax₁ xmax₂)) (← readPolygons firstPolygons)
    (← readPolygons secondPolygons))
  let events := sortEvents h events
  let points := touchPoints h (groupRuns h.evStart events)
  let segments ← new (.segments (commonEdges h events))
  let polygons ← new (.polygons (← calculate (eventsToPolygons h events)))
  return unpackMixValue (unpackPointsValue points) (← unpackSegmentsList segments) (← unpackPolygonsList polygons)

/-! ## `holeless.py` -/

/-- `Intersection.compute` (core/holeless.py:225-239) -/
def holelessIntersection (tb : TieBreak) (first second : Ref) : Prog Value := do
  let firstBox ← calculate (contoursBox (← readRegions first))
  let secondBox ← calculate (contoursBox (← readRegions second))
  if disjointWith firstBox secondBox then return .empty
  let firstRegions ← new (.regions (toCoupledRegions orient secondBox (← readRegions first)))
  if (← readRegions firstRegions).isEmpty then return .empty
  let secondRegions ← new (.regions (toCoupledRegions orient firstBox (← readRegions second)))
  if (← readRegions secondRegions).isEmpty then return .empty
  let (h, events) ← calculate (holelessSweep tb (← readRegions firstRegions) (← readRegions secondRegions))
  unpackRegionsList (← calculate (eventsToRegions h events))

/-- `CompleteIntersection.compute` (core/holeless.py:166-202) -/
def holelessCompleteIntersection (tb : TieBreak) (first second : Ref) : Prog Value := do
  let firstBox ← calculate (contoursBox (← readRegions first))
  let secondBox ← calculate (contoursBox (← readRegions second))
  if disjointWith firstBox secondBox then return .empty
  let firstRegions ← new (.regions (toIntersectingRegions orient secondBox (← readRegions first)))
  if (← readRegions firstRegions).isEmpty then return .empty
  let secondRegions ← new (.regions (toIntersectingRegions orient firstBox (← readRegions second)))
  if (← readRegions secondRegions).isEmpty then return .empty
  let (h, events) ← calculate (holelessSweep tb (← readRegions firstRegions) (← readRegions secondRegions))
  let events := sortEvents h events
  let points := touchPoints h (groupRuns h.evStart events)
  let segments ← new (.segments (commonEdges h events))
  let shaped ← unpackRegionsList (← calculate (eventsToRegions h events))
  return unpackMixValue (unpackPointsValue points) (← unpackSegmentsList segments) shaped

end Clipping.Objects

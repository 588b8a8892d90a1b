import Verif.Model.ObjectCalls

/-!
# Specification vocabulary: list objects which stay as they are
-/

namespace Clipping.Objects

/-- What the call gave: it fails or returns the geometry `x`; all lists which were there before are as they were (`st <+: st'`: the lists of
`st` are the first ones of `st'`); the result refers to lists which exist, namely to new lists or to the lists `shared`. -/
def Refines (st : Store) (shared : List Ref) (result : Except Err (Value × Store)) (x : Except Err Geometry) : Prop :=
  match result with
  | .error e => x = .error e
  | .ok (g, st') => x = .ok (g.read st') ∧ st <+: st' ∧ ∀ r ∈ g.refs, r < st'.length ∧ (r < st.length → r ∈ shared)

/-- the list objects of the argument -/
def LinearArgument.refs : LinearArgument → List Ref
  | .segment _ => []
  | .multisegment r => [r]

/-- the list objects of the argument -/
def ShapedArgument.refs : ShapedArgument → List Ref
  | .polygon _ => []
  | .multipolygon r => [r]

/-- the list objects of the argument -/
def RegionArgument.refs : RegionArgument → List Ref
  | .region _ => []
  | .multiregion r => [r]

/-- the operand as it is at the moment -/
def LinearArgument.operand (st : Store) : LinearArgument → LinearOperand
  | .segment s => segmentOperand s
  | .multisegment r => multisegmentOperand (st.segments r)

/-- the operand as it is at the moment -/
def ShapedArgument.operand (st : Store) : ShapedArgument → ShapedOperand
  | .polygon p => polygonOperand p
  | .multipolygon r => multipolygonOperand (st.polygons r)

/-- the regions as they are at the moment -/
def RegionArgument.regions (st : Store) : RegionArgument → List Contour
  | .region c => [c]
  | .multiregion r => st.regions r

/-- the list objects which the call gets -/
def Call.refs : Call → List Ref
  | .segments _ _ _ => []
  | .segmentWithMultisegment _ _ r => [r]
  | .segmentFromMultisegment r _ => [r]
  | .multisegments _ r r' => [r, r']
  | .toMultisegment r => [r]
  | .mixed _ first second => first.refs ++ second.refs
  | .intersectRegions first second => first.refs ++ second.refs
  | .completeIntersectRegions first second => first.refs ++ second.refs
  | .shaped _ first second => first.refs ++ second.refs

/-- The list objects of the call to which its result may refer: those of the minuend of a difference, and those of both operands of a union
or symmetric difference of a linear and a shaped operand. -/
def Call.shared : Call → List Ref
  | .multisegments .difference minuend _ => [minuend]
  | .mixed .difference minuend _ => minuend.refs
  | .mixed .symmetricDifference first second => first.refs ++ second.refs
  | .mixed .union first second => first.refs ++ second.refs
  | .shaped .difference minuend _ => minuend.refs
  | _ => []

section

variable (orient : Orient) (B : Balancing) (tb : TieBreak)

/-- the operations on values -/
def linearResult : Kind → LinearOperand → LinearOperand → Except Err Geometry
  | .completeIntersection => linearCompleteIntersection tb
  | .intersection => linearIntersection tb
  | .difference => linearDifference tb
  | .symmetricDifference => linearSymmetricDifference tb
  | .union => linearUnion tb

/-- the operations on values -/
def mixedResult : Kind → LinearOperand → ShapedOperand → Except Err Geometry
  | .completeIntersection => Clipping.mixedCompleteIntersection orient tb
  | .intersection => Clipping.mixedIntersection orient tb
  | .difference => Clipping.mixedDifference orient tb
  | .symmetricDifference => Clipping.mixedUnion orient tb
  | .union => Clipping.mixedUnion orient tb

/-- the operations on values -/
def holeyResult : Kind → ShapedOperand → ShapedOperand → Except Err Geometry
  | .completeIntersection => Clipping.holeyCompleteIntersection orient tb
  | .intersection => Clipping.holeyIntersection orient tb
  | .difference => Clipping.holeyDifference orient tb
  | .symmetricDifference => Clipping.holeySymmetricDifference tb
  | .union => Clipping.holeyUnion tb

/-- The result of the functions on values for the operands as they are at the moment. -/
def Call.value (st : Store) : Call → Except Err Geometry
  | .segments k first second => .ok (segmentsResult k first second)
  | .segmentWithMultisegment .intersection segment r => .ok (intersectSegmentWithMultisegment segment (st.segments r))
  | .segmentWithMultisegment .union segment r => .ok (uniteSegmentWithMultisegment segment (st.segments r))
  | .segmentWithMultisegment k segment r => linearResult tb k (segmentOperand segment) (multisegmentOperand (st.segments r))
  | .segmentFromMultisegment r segment => .ok (subtractSegmentFromMultisegment (st.segments r) segment)
  | .multisegments k r r' => linearResult tb k (multisegmentOperand (st.segments r)) (multisegmentOperand (st.segments r'))
  | .toMultisegment r => segmentsToMultisegment B tb (st.segments r)
  | .mixed k first second => mixedResult orient tb k (first.operand st) (second.operand st)
  | .intersectRegions first second => Clipping.holelessIntersection orient tb (first.regions st) (second.regions st)
  | .completeIntersectRegions first second => Clipping.holelessCompleteIntersection orient tb (first.regions st) (second.regions st)
  | .shaped k first second => holeyResult orient tb k (first.operand st) (second.operand st)

end

/-- A history of a program which makes list objects and calls functions of the library with any list objects which exist, also with those of
results of earlier calls: the lists at its beginning, the calls (with the unknown orders of their priority queues) and what they returned,
and the lists at its end.  The program itself does not change lists. -/
inductive History (orient : Orient) (B : Balancing) : Store → List (Call × TieBreak × Value) → Store → Prop
  | done (st : Store) : History orient B st [] st
  | makes {st st' : Store} {calls : List (Call × TieBreak × Value)} (l : PyList) (h : History orient B (st ++ [l]) calls st') :
      History orient B st calls st'
  | calls {st st₁ st' : Store} {calls : List (Call × TieBreak × Value)} {c : Call} {tb : TieBreak} {v : Value}
      (exist : ∀ r ∈ c.refs, r < st.length) (returns : c.run orient B tb st = .ok (v, st₁)) (h : History orient B st₁ calls st') :
      History orient B st ((c, tb, v) :: calls) st'

end Clipping.Objects

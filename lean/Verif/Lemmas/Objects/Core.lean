import Verif.Spec.Objects

/-!
# Running code with list objects
-/

namespace Clipping.Objects

section run

variable {α β : Type} (st : Store)

theorem run_new (l : PyList) (f : Ref → Prog β) : (new l >>= f) st = f st.length (st ++ [l]) := rfl

theorem run_readSegments (r : Ref) (f : List Segment → Prog β) : (readSegments r >>= f) st = f (st.segments r) st := rfl

theorem run_readPolygons (r : Ref) (f : List Polygon → Prog β) : (readPolygons r >>= f) st = f (st.polygons r) st := rfl

theorem run_readRegions (r : Ref) (f : List Contour → Prog β) : (readRegions r >>= f) st = f (st.regions r) st := rfl

/-- what `unpack_segments` makes of a list -/
def segmentsValue (r : Ref) : List Segment → Value
  | [] => .empty
  | [s] => .segment s
  | _ :: _ :: _ => .multisegment r

/-- what `unpack_polygons` makes of a list -/
def polygonsValue (r : Ref) : List Polygon → Value
  | [] => .empty
  | [p] => .polygon p
  | _ :: _ :: _ => .multipolygon r

theorem unpackSegmentsList_eq (r : Ref) : unpackSegmentsList r st = .ok (segmentsValue r (st.segments r), st) := by
  show (match st.segments r with | [] => _ | [s] => _ | _ :: _ :: _ => _ : Prog Value) st = _
  rcases st.segments r with _ | ⟨s, _ | ⟨t, l⟩⟩ <;> rfl

theorem unpackPolygonsList_eq (r : Ref) : unpackPolygonsList r st = .ok (polygonsValue r (st.polygons r), st) := by
  show (match st.polygons r with | [] => _ | [s] => _ | _ :: _ :: _ => _ : Prog Value) st = _
  rcases st.polygons r with _ | ⟨s, _ | ⟨t, l⟩⟩ <;> rfl

theorem run_unpackSegments (r : Ref) (f : Value → Prog β) : (unpackSegmentsList r >>= f) st = f (segmentsValue r (st.segments r)) st := by
  show Except.bind (unpackSegmentsList r st) _ = _
  rw [unpackSegmentsList_eq]; rfl

theorem run_unpackPolygons (r : Ref) (f : Value → Prog β) : (unpackPolygonsList r >>= f) st = f (polygonsValue r (st.polygons r)) st := by
  show Except.bind (unpackPolygonsList r st) _ = _
  rw [unpackPolygonsList_eq]; rfl

end run

section store

variable {st : Store}

theorem segments_old {r : Ref} (h : r < st.length) (new : Store) : Store.segments (st ++ new) r = st.segments r := by
  unfold Store.segments; rw [List.getElem?_append_left h]

theorem polygons_old {r : Ref} (h : r < st.length) (new : Store) : Store.polygons (st ++ new) r = st.polygons r := by
  unfold Store.polygons; rw [List.getElem?_append_left h]

theorem regions_old {r : Ref} (h : r < st.length) (new : Store) : Store.regions (st ++ new) r = st.regions r := by
  unfold Store.regions; rw [List.getElem?_append_left h]

theorem read_old {v : Value} (h : ∀ r ∈ v.refs, r < st.length) (new : Store) : v.read (st ++ new) = v.read st := by
  induction v with
  | multisegment r => simp only [Value.read, segments_old (h r (by simp [Value.refs]))]
  | multipolygon r => simp only [Value.read, polygons_old (h r (by simp [Value.refs]))]
  | mix a b c iha ihb ihc =>
    simp only [Value.refs, List.mem_append] at h
    simp only [Value.read, iha fun r hr => h r (.inl (.inl hr)), ihb fun r hr => h r (.inl (.inr hr)), ihc fun r hr => h r (.inr hr)]
  | _ => rfl

end store

theorem segmentsValue_read (st : Store) (r : Ref) (l : List Segment) (h : st.segments r = l) : (segmentsValue r l).read st = unpackSegments l := by
  rcases l with _ | ⟨s, _ | ⟨t, l⟩⟩ <;> simp [segmentsValue, Value.read, unpackSegments, h]

theorem polygonsValue_read (st : Store) (r : Ref) (l : List Polygon) (h : st.polygons r = l) : (polygonsValue r l).read st = unpackPolygons l := by
  rcases l with _ | ⟨s, _ | ⟨t, l⟩⟩ <;> simp [polygonsValue, Value.read, unpackPolygons, h]

theorem segmentsValue_refs {r r' : Ref} {l : List Segment} (h : r' ∈ (segmentsValue r l).refs) : r' = r := by
  rcases l with _ | ⟨s, _ | ⟨t, l⟩⟩ <;> simp_all [segmentsValue, Value.refs]

theorem polygonsValue_refs {r r' : Ref} {l : List Polygon} (h : r' ∈ (polygonsValue r l).refs) : r' = r := by
  rcases l with _ | ⟨s, _ | ⟨t, l⟩⟩ <;> simp_all [polygonsValue, Value.refs]

end Clipping.Objects

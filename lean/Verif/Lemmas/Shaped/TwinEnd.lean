import Verif.Lemmas.Shaped.Twin
import Verif.Lemmas.Arrangement

/-!
# The segments of the result are determined by the edges of the operands
-/

namespace Clipping

open Sweep

theorem SameEdges.sameSegments {A B : List Segment} (h : SameEdges A B) : SameSegments A B := by
  have key : ∀ A B : List Segment, SameEdges A B → ∀ s ∈ A, ∃ t ∈ B, s.lo = t.lo ∧ s.hi = t.hi := by
    intro A B h s hs
    have : s.norm ∈ B.map Segment.norm := (List.Perm.mem_iff h).1 (List.mem_map_of_mem hs)
    obtain ⟨t, ht, e⟩ := List.mem_map.1 this
    refine ⟨t, ht, ?_, ?_⟩
    · rw [← norm_lo s, ← e, norm_lo]
    · rw [← norm_hi s, ← e, norm_hi]
  refine ⟨key A B h, fun t ht => ?_⟩
  obtain ⟨s, hs, h1, h2⟩ := key B A h.symm t ht
  exact ⟨s, hs, h1.symm, h2.symm⟩

variable {op : Bool → Bool → Bool} {h : Heap ShapedData} {events : List Ev} {stop : Point → Bool} {A B : List Segment}

/-- The segments of the result are the edges of the arrangement which separate the inside of the combination of the
operands from its outside. -/
theorem ShapedEnd.mem_leftEdges (E : ShapedEnd op h events stop A B) (hA : NoOverlap A) (hB : NoOverlap B) (t : Segment) :
    t ∈ leftEdges h (events.filter (fromResult h)) ↔
      IsEdge (A ++ B) t ∧ ∃ m ∈ t.pts, ¬ t.IsEnd m ∧ Separates op A B m := by
  have bd := E.isBoundaryOf
  have edge : ∀ i ∈ finishedLefts h events, IsEdge (A ++ B) (h.segment i) := by
    intro i hi
    have := E.fin.edge hi
    rwa [marked_fst] at this
  constructor
  · intro ht
    have ht' := E.selected_perm.mem_iff.1 ht
    obtain ⟨i, hi, rfl⟩ := List.mem_map.1 ht'
    have he := edge i (List.mem_filter.1 hi).1
    obtain ⟨m, m1, m2⟩ := exists_inner he.lt.ne
    refine ⟨he, m, m1, m2, (bd.separates m fun hv => m2 (he.inner m m1 hv)).1 ⟨_, ht, m1⟩⟩
  · rintro ⟨he, m, m1, m2, hs⟩
    have hv : ¬ Vertex (A ++ B) m := fun hv => m2 (he.inner m m1 hv)
    obtain ⟨t', ht', hm'⟩ := (bd.separates m hv).2 hs
    have ht'' := E.selected_perm.mem_iff.1 ht'
    obtain ⟨i, hi, rfl⟩ := List.mem_map.1 ht''
    have hiF := (List.mem_filter.1 hi).1
    have hei := edge i hiF
    have hl := (operandsOk_marked hA hB).1
    obtain ⟨s, hs', hsub⟩ := he.within
    have : ∃ x ∈ marked A B, x.1 = s := by
      rw [← marked_fst A B] at hs'
      obtain ⟨x, hx, e⟩ := List.mem_map.1 hs'
      exact ⟨x, hx, e⟩
    obtain ⟨x, hx, rfl⟩ := this
    obtain ⟨k, hk, -, hsub', hmk⟩ := E.fin.cov x hx m (hsub m1)
    obtain ⟨e1, hkF⟩ := E.fin.same hiF hk hm' hmk (fun hh => hv (by
      rcases hh with rfl | rfl
      · exact hei.start
      · exact hei.stop))
    have he' : IsEdge ((marked A B).map Prod.fst) t := by rw [marked_fst]; exact he
    have e2 := E.fin.edge_eq hl hx he' hsub hkF hsub' m1 hmk m2
    rw [← e2, ← e1]
    exact ht'

theorem Separates.congr {op op' : Bool → Bool → Bool} {A B A' B' : List Segment}
    (hp : segsPts (A ++ B) = segsPts (A' ++ B')) (hc : ∀ q, Combined op A B q ↔ Combined op' A' B' q) {m : Point} :
    Separates op A B m ↔ Separates op' A' B' m := by
  unfold Separates
  simp only [hp, hc]

/-- Both operands have the same edges. -/
theorem Combined.congr {A B A' B' : List Segment} (hA : SameEdges A A') (hB : SameEdges B B') (q : Point) :
    Combined op A B q ↔ Combined op A' B' q := by
  unfold Combined
  simp only [hA.inside_iff, hB.inside_iff]

theorem Combined.swap (q : Point) : Combined op A B q ↔ Combined (fun a b => op b a) B A q := Iff.rfl

variable {op' : Bool → Bool → Bool} {h' : Heap ShapedData} {events' : List Ev} {stop' : Point → Bool} {A' B' : List Segment}

theorem ShapedEnd.twin (E : ShapedEnd op h events stop A B) (E' : ShapedEnd op' h' events' stop' A' B') (hA : NoOverlap A)
    (hB : NoOverlap B) (hA' : NoOverlap A') (hB' : NoOverlap B') (hs : SameSegments (A ++ B) (A' ++ B'))
    (hc : ∀ q, Combined op A B q ↔ Combined op' A' B' q) : Selected.Twin E.selected E'.selected := by
  refine Selected.twin _ _ fun t => ?_
  rw [E.mem_leftEdges hA hB, E'.mem_leftEdges hA' hB', hs.isEdge]
  simp only [Separates.congr hs.pts hc]

end Clipping

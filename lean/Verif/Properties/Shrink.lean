import Verif.Lemmas.Region.Shrunk
import Verif.Lemmas.Region.Check

/-!
# C30: collinear vertices are dropped without changing the contour
-/

namespace Clipping

/-- C30.  For any list of vertices the code only drops vertices which are on the line through their neighbours (in cyclic
order), and keeps the order of the others. -/
theorem shrink_drops_collinear (vertices : List Point) :
    DropsVertices vertices (shrinkCollinearVertices vertices) ∧
    (shrinkCollinearVertices vertices).Sublist vertices :=
  shrinkCollinearVertices_drops vertices

/-- C30.  A simple contour stays simple and keeps its points and its interior. -/
theorem shrink_keeps_contour {vertices : List Point} (h : SimpleContour ⟨vertices⟩) :
    SimpleContour ⟨shrinkCollinearVertices vertices⟩ ∧
    segsPts (Contour.mk (shrinkCollinearVertices vertices)).edges = segsPts (Contour.mk vertices).edges ∧
    ∀ m, Inside (Contour.mk (shrinkCollinearVertices vertices)).edges m ↔ Inside (Contour.mk vertices).edges m := by
  obtain ⟨h1, h2⟩ := h.drops (shrinkCollinearVertices_drops vertices).1
  exact ⟨h1, h2.segsPts_eq, h2.inside_iff⟩

/-- C30.  No three consecutive vertices of a simple contour are left on a line. -/
theorem shrink_leaves_no_collinear {vertices : List Point} (h : SimpleContour ⟨vertices⟩) {a b c : Point}
    {rest : List Point} (hr : shrinkCollinearVertices vertices ~r (a :: b :: c :: rest)) : cross a b c ≠ 0 := by
  intro hc
  obtain ⟨n, hn⟩ := hr
  have h3 : 3 ≤ (shrinkCollinearVertices vertices).length := (shrink_keeps_contour h).1.three
  set ws := shrinkCollinearVertices vertices with hws
  have g : ∀ j (hj : j < 3), vtx ⟨ws⟩ (n + j) = (a :: b :: c :: rest)[j]'(by simp; omega) := by
    intro j hj
    rw [add_comm, ← vtx_rotate, vtx_of_lt (by simp only [List.length_rotate]; omega)]
    simp only [hn]
  have g0 := g 0 (by omega)
  have g1 := g 1 (by omega)
  have g2 := g 2 (by omega)
  simp only [List.getElem_cons_zero, List.getElem_cons_succ, add_zero] at g0 g1 g2
  refine not_flat h.shrunk (j := (n + 1) % ws.length) (Nat.mod_lt _ (by omega)) ?_
  rw [flat_iff (vs := ws) (by omega) rfl, g0, g1, g2]
  exact hc

/-- A square with redundant vertices on three sides, the first vertex is one of them -/
def exFlat : List Point := [⟨1, 0⟩, ⟨2, 0⟩, ⟨3, 0⟩, ⟨4, 0⟩, ⟨4, 1⟩, ⟨4, 4⟩, ⟨0, 4⟩, ⟨0, 1⟩, ⟨0, 0⟩]

example : shrinkCollinearVertices exFlat = [⟨4, 0⟩, ⟨4, 4⟩, ⟨0, 4⟩, ⟨0, 0⟩] := by decide +kernel

/-- It is a simple contour. -/
example : SimpleContour ⟨exFlat⟩ := simpleCheck_spec (by decide +kernel)

end Clipping

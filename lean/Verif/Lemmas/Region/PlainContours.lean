import Verif.Lemmas.Region.Plain
import Verif.Lemmas.Shaped.Written

/-!
# Contours which do not touch each other are determined by their points
-/

namespace Clipping

open Sweep

theorem vtx_congr {c : Contour} {i j : ℕ} (h : i ≡ j [MOD c.vertices.length]) : vtx c i = vtx c j := by
  unfold vtx; rw [h]

theorem mem_edges {c : Contour} {e : Segment} : e ∈ c.edges ↔ ∃ i < c.vertices.length, e = ⟨vtx c i, vtx c (i + 1)⟩ := by
  rw [contour_edges_eq, mem_cycEdges]
  simp only [Nat.zero_add]

theorem vtx_edge {c : Contour} (h : c.vertices ≠ []) (i : ℕ) : (⟨vtx c i, vtx c (i + 1)⟩ : Segment) ∈ c.edges :=
  mem_edges.2 ⟨i % c.vertices.length, Nat.mod_lt _ (List.length_pos_iff.2 h), by rw [vtx_mod, vtx_mod_succ]⟩

theorem SimpleContour.nonempty {c : Contour} (h : SimpleContour c) : c.vertices ≠ [] := by
  intro g
  have := h.three
  rw [g] at this
  simp at this

/-- A contour which starts as another one and has edges of it goes on as the other one does. -/
theorem follow {c d : Contour} (hc : SimpleContour c) (hd : SimpleContour d) {j : ℕ} (h0 : vtx c 0 = vtx d j)
    (h1 : vtx c 1 = vtx d (j + 1))
    (hl : ∀ i y, vtx c (i + 1) = vtx d y → ∃ x, (vtx d x = vtx c (i + 1) ∧ vtx d (x + 1) = vtx c (i + 2)) ∨
      (vtx d x = vtx c (i + 2) ∧ vtx d (x + 1) = vtx c (i + 1))) (i : ℕ) : vtx c i = vtx d (j + i) := by
  have C := hc.cyc
  have D := hd.cyc
  suffices h : vtx c i = vtx d (j + i) ∧ vtx c (i + 1) = vtx d (j + i + 1) from h.1
  induction i with
  | zero => exact ⟨h0, h1⟩
  | succ i ih =>
    refine ⟨by rw [ih.2, Nat.add_assoc], ?_⟩
    obtain ⟨x, ⟨a, b⟩ | ⟨a, b⟩⟩ := hl i (j + i + 1) ih.2
    · have := D.inj _ _ (a.trans ih.2)
      rw [show i + 1 + 1 = i + 2 from rfl, ← b]
      exact vtx_congr (this.add_right 1)
    · have := D.inj _ _ (b.trans ih.2)
      have e := vtx_congr (c := d) (Nat.ModEq.add_right_cancel' 1 this)
      rw [a, ← ih.1] at e
      exact absurd (C.inj _ _ e.symm) (not_modEq_add Nat.two_pos (by have := C.three; omega))

theorem rotated_of_vtx {c d : Contour} (hc : SimpleContour c) (hd : SimpleContour d) {j : ℕ}
    (h : ∀ i, vtx c i = vtx d (j + i)) : c.vertices ~r d.vertices := by
  have C := hc.cyc
  have D := hd.cyc
  have d1 : c.vertices.length ∣ d.vertices.length := by
    have : vtx c d.vertices.length = vtx c 0 := by rw [h, h, D.period, Nat.add_zero]
    exact (Nat.modEq_zero_iff_dvd).1 (C.inj _ _ this)
  have d2 : d.vertices.length ∣ c.vertices.length := by
    have : vtx d (j + c.vertices.length) = vtx d (j + 0) := by
      rw [← h, ← h]
      exact (Nat.zero_add c.vertices.length) ▸ C.period 0
    exact (Nat.modEq_zero_iff_dvd).1 (Nat.ModEq.add_left_cancel' j (D.inj _ _ this))
  have len : c.vertices.length = d.vertices.length := Nat.dvd_antisymm d1 d2
  refine List.IsRotated.symm ⟨j, ?_⟩
  refine List.ext_getElem (by simp [len]) fun i h1 h2 => ?_
  have e1 := vtx_of_lt (c := ⟨d.vertices.rotate j⟩) (i := i) h1
  have e2 := vtx_of_lt (c := c) h2
  simp only at e1
  rw [← e1, ← e2, vtx_rotate, h, Nat.add_comm]

/-- Simple contours no two of which have common points, without vertices between neighbours on a line. -/
structure Loose (C : List Contour) : Prop where
  simple : ∀ c ∈ C, SimpleContour c
  corners : ∀ c ∈ C, ∀ u v w rest, c.vertices ~r (u :: v :: w :: rest) → cross u v w ≠ 0
  disjoint : C.Pairwise fun c d => ∀ q ∈ segsPts c.edges, q ∉ segsPts d.edges

namespace Loose

theorem eq_of_common {C : List Contour} (h : Loose C) {c d : Contour} (hc : c ∈ C) (hd : d ∈ C) {q : Point}
    (h1 : q ∈ segsPts c.edges) (h2 : q ∈ segsPts d.edges) : c = d := by
  by_contra hne
  have : Std.Symm fun c d : Contour => ∀ q ∈ segsPts c.edges, q ∉ segsPts d.edges := ⟨fun _ _ g q hq hq' => g q hq' hq⟩
  exact h.disjoint.forall hc hd hne q h1 h2

theorem corner {c : Contour} (hs : SimpleContour c) (hn : ∀ u v w rest, c.vertices ~r (u :: v :: w :: rest) → cross u v w ≠ 0)
    {L : List Segment} (pr : ∀ s ∈ L, s.Proper) (hw : segsPts c.edges ⊆ segsPts L) {v : Point} (hv : v ∈ c.vertices) : Vertex L v := by
  obtain ⟨u, w, rest, hr⟩ := rotated_middle hs.three hv
  have e := edges_rotated hr
  have mem : ∀ s ∈ (Contour.mk (u :: v :: w :: rest)).edges, s.pts ⊆ segsPts L := fun s h q hq => hw ⟨s, e.mem_iff.2 h, hq⟩
  rw [(edges_three u v w rest).1] at mem
  refine corner_vertex pr (u := u) (w := w) ?_ (mem ⟨v, w⟩ (by simp)) (hn u v w rest hr)
  have := mem ⟨u, v⟩ (by simp)
  intro q hq
  exact this (by rwa [Segment.pts_swap] at hq)

theorem plain {C : List Contour} (h : Loose C) : Plain (C.flatMap Contour.edges) where
  proper e he := by
    obtain ⟨c, hc, he⟩ := List.mem_flatMap.1 he
    exact (h.simple c hc).proper e he
  solo e he e' he' q hq hq' hn := by
    obtain ⟨c, hc, he⟩ := List.mem_flatMap.1 he
    obtain ⟨c', hc', he'⟩ := List.mem_flatMap.1 he'
    obtain rfl := h.eq_of_common hc hc' ⟨e, he, hq⟩ ⟨e', he', hq'⟩
    by_contra hne
    have : Std.Symm fun s t : Segment => ∀ q, q ∈ s.pts → q ∈ t.pts → s.IsEnd q ∧ t.IsEnd q :=
      ⟨fun _ _ g q h1 h2 => (g q h2 h1).symm⟩
    exact hn (List.Pairwise.forall (h.simple c hc).ends he he' (Ne.symm hne) q hq hq').1
  vertex L pr hL e he v hv := by
    obtain ⟨c, hc, he⟩ := List.mem_flatMap.1 he
    refine corner (h.simple c hc) (h.corners c hc) pr (fun q ⟨s, hs, hq⟩ => hL ⟨s, List.mem_flatMap.2 ⟨c, hc, hs⟩, hq⟩) ?_
    obtain ⟨i, -, rfl⟩ := mem_edges.1 he
    rcases hv with rfl | rfl
    · exact vtx_mem (h.simple c hc).nonempty _
    · exact vtx_mem (h.simple c hc).nonempty _

theorem norm_eq_cases {e f : Segment} (h : f.norm = e.norm) :
    (f.start = e.start ∧ f.stop = e.stop) ∨ (f.start = e.stop ∧ f.stop = e.start) := by
  unfold Segment.norm at h
  simp only [Segment.mk.injEq] at h
  obtain ⟨h1, h2⟩ := h
  rcases Segment.lo_hi_cases e with ⟨a, b, -⟩ | ⟨a, b, -⟩ <;> rcases Segment.lo_hi_cases f with ⟨a', b', -⟩ | ⟨a', b', -⟩ <;>
    rw [a, a'] at h1 <;> rw [b, b'] at h2
  · exact Or.inl ⟨h1, h2⟩
  · exact Or.inr ⟨h2, h1⟩
  · exact Or.inr ⟨h1, h2⟩
  · exact Or.inl ⟨h2, h1⟩

/-- The contours are the same if the points are. -/
theorem contour {C D : List Contour} (hC : Loose C) (hD : Loose D)
    (h : segsPts (C.flatMap Contour.edges) = segsPts (D.flatMap Contour.edges)) {c : Contour} (hc : c ∈ C) :
    ∃ d ∈ D, SameContour c d := by
  have sc := hC.simple c hc
  -- edges of `c`
  have edge : ∀ i, ∃ d ∈ D, ∃ x, (vtx d x = vtx c i ∧ vtx d (x + 1) = vtx c (i + 1)) ∨ (vtx d x = vtx c (i + 1) ∧ vtx d (x + 1) = vtx c i) := by
    intro i
    obtain ⟨f, hf, e⟩ := hC.plain.edge hD.plain h (List.mem_flatMap.2 ⟨c, hc, vtx_edge sc.nonempty i⟩)
    obtain ⟨d, hd, hf⟩ := List.mem_flatMap.1 hf
    obtain ⟨x, -, rfl⟩ := mem_edges.1 hf
    exact ⟨d, hd, x, norm_eq_cases e⟩
  have on : ∀ d ∈ D, ∀ x, vtx d x ∈ segsPts d.edges := fun d hd x =>
    ⟨_, vtx_edge (hD.simple d hd).nonempty x, Segment.start_mem _⟩
  obtain ⟨d, hd, x, hx⟩ := edge 0
  refine ⟨d, hd, ?_⟩
  have sd := hD.simple d hd
  have same : ∀ i y, vtx c (i + 1) = vtx d y → ∃ x, (vtx d x = vtx c (i + 1) ∧ vtx d (x + 1) = vtx c (i + 2)) ∨
      (vtx d x = vtx c (i + 2) ∧ vtx d (x + 1) = vtx c (i + 1)) := by
    intro i y hy
    obtain ⟨d', hd', x', hx'⟩ := edge (i + 1)
    have : d' = d := by
      refine hD.eq_of_common hd' hd (q := vtx c (i + 1)) ?_ (hy ▸ on d hd y)
      rcases hx' with ⟨a, -⟩ | ⟨-, a⟩
      · exact a ▸ on d' hd' x'
      · exact a ▸ on d' hd' (x' + 1)
    rw [this] at hx'
    exact ⟨x', hx'⟩
  rcases hx with ⟨a, b⟩ | ⟨a, b⟩
  · exact Or.inl (rotated_of_vtx sc sd (follow sc sd a.symm b.symm same))
  · -- the other direction
    have sd' : SimpleContour ⟨reverseVertices d.vertices⟩ := sd.reversed
    have perm := edges_reverse_perm d.vertices
    have turn : ∀ x, ∃ x', vtx ⟨reverseVertices d.vertices⟩ x' = vtx d (x + 1) ∧ vtx ⟨reverseVertices d.vertices⟩ (x' + 1) = vtx d x := by
      intro x
      have : (⟨vtx d (x + 1), vtx d x⟩ : Segment) ∈ (Contour.mk (reverseVertices d.vertices)).edges :=
        perm.mem_iff.2 (List.mem_map.2 ⟨_, vtx_edge sd.nonempty x, rfl⟩)
      obtain ⟨x', -, e⟩ := mem_edges.1 this
      simp only [Segment.mk.injEq] at e
      exact ⟨x', e.1.symm, e.2.symm⟩
    have back : ∀ y, ∃ y', vtx ⟨reverseVertices d.vertices⟩ y = vtx d y' := by
      intro y
      have := vtx_edge sd'.nonempty y
      obtain ⟨s, hs, e⟩ := List.mem_map.1 (perm.mem_iff.1 this)
      obtain ⟨z, -, rfl⟩ := mem_edges.1 hs
      simp only [Segment.swap, Segment.mk.injEq] at e
      exact ⟨z + 1, e.1.symm⟩
    obtain ⟨x', a', b'⟩ := turn x
    have := rotated_of_vtx sc sd' (follow sc sd' (j := x') (by rw [a', b]) (by rw [b', a]) fun i y hy => by
      obtain ⟨y', hy'⟩ := back y
      obtain ⟨z, hz⟩ := same i y' (hy.trans hy')
      obtain ⟨z', a'', b''⟩ := turn z
      rw [← a'', ← b''] at hz
      exact ⟨z', hz.symm.imp And.symm And.symm⟩)
    refine Or.inr ?_
    have r := (reverseVertices_rotated d.vertices).symm
    have := (this.trans r).reverse
    rwa [List.reverse_reverse] at this

end Loose

end Clipping

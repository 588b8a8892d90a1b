import Verif.Lemmas.Plane.Walk

/-!
# Traced contours
-/

namespace Clipping

namespace Darts

variable {D : Darts}

/-- A contour along the boundary of a face of the rest of the graph -/
structure Traced (D : Darts) (F : Finset ℕ) (d : ℕ) (R : List ℕ) : Prop where
  head : R.head? = some d
  loop : D.Loop R
  mem : ∀ i ∈ R, i ∈ F
  face : ∀ i ∈ R, D.SameFace F d i

theorem Walk.finish {F : Finset ℕ} {nx : ℕ → ℕ} {d k : ℕ} {R : List ℕ} {pos : Point → Option ℕ} (W : D.Walk nx d R pos k)
    (S : D.Steps F nx) (hd : d ∈ F) (h : D.key (D.opp (nx^[k] d)) = D.key d) : D.Traced F d R where
  head := W.head
  loop := by
    have hp : 0 < R.length := List.length_pos_iff.2 W.ne_nil
    have h0 := W.head
    rw [List.head?_eq_getElem?, List.getElem?_eq_getElem hp] at h0
    exact W.loop S hd (p := 0) hp (by rw [Option.some.inj h0, h])
  mem i hi := W.mem S hd hi
  face i hi := by
    obtain ⟨j, -, rfl⟩ := W.past i hi
    exact S.face hd j

namespace Traced

variable {F : Finset ℕ} {d : ℕ} {R : List ℕ}

theorem start (T : D.Traced F d R) : d ∈ R := List.mem_of_mem_head? T.head

theorem face' (T : D.Traced F d R) (hF : D.Closed F) {i j : ℕ} (hi : i ∈ R) (hj : j ∈ R) : D.SameFace F i j :=
  hF.sameFace_trans (hF.lt _ (T.mem _ T.start)) (T.face i hi).symm (T.face j hj)

end Traced

/-- The edges without those of a contour -/
def rest (D : Darts) (F : Finset ℕ) (R : List ℕ) : Finset ℕ := F.filter fun i => i ∉ R ∧ D.opp i ∉ R

theorem mem_rest {F : Finset ℕ} {R : List ℕ} {i : ℕ} : i ∈ D.rest F R ↔ i ∈ F ∧ i ∉ R ∧ D.opp i ∉ R := by
  unfold rest; rw [Finset.mem_filter]

theorem rest_closed {F : Finset ℕ} {R : List ℕ} (h : D.Closed F) : D.Closed (D.rest F R) where
  lt i hi := h.lt i (mem_rest.1 hi).1
  opp i hi := by
    obtain ⟨h1, h2, h3⟩ := mem_rest.1 hi
    exact mem_rest.2 ⟨h.opp i h1, h3, by rw [D.opp_opp i (h.lt i h1)]; exact h2⟩

theorem rest_even {F : Finset ℕ} {R : List ℕ} (h : D.Closed F) (ev : ∀ q, Even (degree (D.edges F) q)) (hR : D.Loop R)
    (sub : ∀ i ∈ R, i ∈ F) : ∀ q, Even (degree (D.edges (D.rest F R)) q) := by
  classical
  intro q
  rw [degree_edges (rest_closed h)]
  have e1 := ev q
  rw [degree_edges h] at e1
  have e2 := hR.even q
  have lt := hR.lt
  -- the darts of the contour at the vertex
  have c1 : ∀ P : ℕ → Prop, ∀ [DecidablePred P], R.countP (fun i => decide (P i)) = (R.toFinset.filter P).card := by
    intro P _
    rw [List.countP_eq_length_filter, ← List.toFinset_card_of_nodup (hR.nodup.filter _)]
    congr 1
    ext i
    simp
  have d1 : degree (R.map D.seg) q = (R.toFinset.filter fun i => D.key i = q).card +
      (R.toFinset.filter fun i => D.key (D.opp i) = q).card := by
    unfold degree
    rw [List.countP_map, List.countP_map, ← c1, ← c1]
    rfl
  have d2 : (R.toFinset.filter fun i => D.key (D.opp i) = q).card =
      ((R.toFinset.image D.opp).filter fun i => D.key i = q).card := by
    rw [← Finset.card_image_of_injOn (f := D.opp) (s := R.toFinset.filter fun i => D.key (D.opp i) = q)]
    · congr 1
      ext i
      simp only [Finset.mem_image, Finset.mem_filter, List.mem_toFinset]
      constructor
      · rintro ⟨a, ⟨h1, h2⟩, rfl⟩; exact ⟨⟨a, h1, rfl⟩, h2⟩
      · rintro ⟨⟨a, h1, rfl⟩, h2⟩; exact ⟨a, ⟨h1, h2⟩, rfl⟩
    · intro a ha b hb hab
      simp only [Finset.coe_filter, List.mem_toFinset, Set.mem_ofPred_eq] at ha hb
      exact opp_inj (lt a ha.1) (lt b hb.1) hab
  have split : F.filter (fun i => D.key i = q) = (D.rest F R).filter (fun i => D.key i = q) ∪
      ((R.toFinset.filter fun i => D.key i = q) ∪ ((R.toFinset.image D.opp).filter fun i => D.key i = q)) := by
    ext i
    simp only [Finset.mem_union, Finset.mem_filter, mem_rest, List.mem_toFinset, Finset.mem_image]
    constructor
    · rintro ⟨h1, h2⟩
      by_cases h3 : i ∈ R
      · exact Or.inr (Or.inl ⟨h3, h2⟩)
      · by_cases h4 : D.opp i ∈ R
        · exact Or.inr (Or.inr ⟨⟨_, h4, D.opp_opp i (h.lt i h1)⟩, h2⟩)
        · exact Or.inl ⟨⟨h1, h3, h4⟩, h2⟩
    · rintro (⟨⟨h1, -, -⟩, h2⟩ | ⟨h1, h2⟩ | ⟨⟨a, h1, rfl⟩, h2⟩)
      · exact ⟨h1, h2⟩
      · exact ⟨sub i h1, h2⟩
      · exact ⟨h.opp a (sub a h1), h2⟩
  rw [split, Finset.card_union_of_disjoint, Finset.card_union_of_disjoint, ← d2, ← d1] at e1
  · rw [Nat.even_iff] at e1 e2 ⊢
    omega
  · rw [Finset.disjoint_left]
    intro i h1 h2
    simp only [Finset.mem_filter, List.mem_toFinset, Finset.mem_image] at h1 h2
    obtain ⟨⟨a, ha, rfl⟩, -⟩ := h2
    exact hR.opp a ha h1.1
  · rw [Finset.disjoint_left]
    intro i h1 h2
    simp only [Finset.mem_union, Finset.mem_filter, List.mem_toFinset, Finset.mem_image, mem_rest] at h1 h2
    rcases h2 with ⟨h2, -⟩ | ⟨⟨a, h2, rfl⟩, -⟩
    · exact h1.1.2.1 h2
    · have := h1.1.2.2
      rw [D.opp_opp a (lt a h2)] at this
      exact this h2

/-- The contours traced one after another, each from the first of the remaining edges on -/
inductive Traces (D : Darts) (F₀ : Finset ℕ) : List (List ℕ) → Finset ℕ → Prop
  | nil : Traces D F₀ [] F₀
  | snoc {F : Finset ℕ} {d : ℕ} {R : List ℕ} {Rs : List (List ℕ)} (prev : Traces D F₀ Rs F) (hd : d ∈ F)
      (least : ∀ i ∈ F, d ≤ i) (h : D.Traced F d R) : Traces D F₀ (Rs ++ [R]) (D.rest F R)

end Darts

end Clipping

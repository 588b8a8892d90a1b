import Verif.Model.Mixed
import Verif.Lemmas.Flags.End
import Verif.Lemmas.Region.Const

/-!
# The sweep of linear and shaped operands
-/

namespace Clipping

open Sweep

section
variable {α : Type} {h : Heap α} {F : List ℕ} {stop : Point → Bool} {a b : List Segment}

theorem Sweep.Final.mem_left (f : Final h F stop (marked a b)) {q : Point} :
    q ∈ segsPts a ↔ ∃ i < h.count, h.first i = true ∧ q ∈ (h.segment i).pts := by
  rw [← inputPts_true a b, ← f.pts]; rfl

theorem Sweep.Final.mem_right (f : Final h F stop (marked a b)) {q : Point} :
    q ∈ segsPts b ↔ ∃ i < h.count, h.first i = false ∧ q ∈ (h.segment i).pts := by
  rw [← inputPts_false a b, ← f.pts]; rfl

end

/-- Decisions of the mixed operations. -/
def mixedFlags (sel : Bool → MixedData → Bool) (g : Bool → Bool)
    (hg : ∀ b d, sel b d = (b && g d.outside)) : Flags (mixedOps sel) Bool where
  itl := MixedData.interiorToLeft
  oth := MixedData.otherInteriorToLeft
  res := MixedData.fromResult
  mark := MixedData.isOverlap
  none := false
  kind := fun _ _ => true
  rule := fun first x k => first && g (!x && !k)
  tail_itl _ := rfl
  tail_oth _ := rfl
  tail_mark _ := rfl
  create_itl _ := rfl
  create_oth _ := rfl
  create_mark _ := rfl
  overlap_itl _ _ _ := ⟨rfl, rfl⟩
  overlap_oth _ _ _ := ⟨rfl, rfl⟩
  overlap_res _ _ _ := ⟨rfl, rfl⟩
  overlap_mark _ _ := ⟨rfl, rfl⟩
  compute_itl h i b := by cases b <;> rfl
  compute_oth h i b := by
    cases b with
    | none => rfl
    | some b =>
      simp only [mixedOps, mixedCompute]
      by_cases e : h.first i = h.first b
      · simp [e]
      · simp [e, Ne.symm e]
  compute_mark h i b := by cases b <;> rfl
  compute_res h i b := by
    cases b <;> simp only [mixedOps, mixedCompute, hg, MixedData.outside]

/-- The end of the sweep of a linear and a shaped operand. -/
structure MixedEnd (g : Bool → Bool) (h : Heap MixedData) (log : List (Ev × ℕ)) (stop : Point → Bool)
    (L E : List Segment) : Prop where
  fin : Final h (rightsOf log) stop (marked L E)
  nodup : (log.map Prod.fst).Nodup
  prim : ∀ x ∈ log, x.2 = h.primary x.1
  ok : HeapOk h
  mem : ∀ e, e ∈ log.map Prod.fst ↔ EvOk h e ∧ stop (h.evStart e) = false
  /-- the decisions about finished segments -/
  sel : ∀ i ∈ rightsOf log, h.first i = true → ∀ m ∈ (h.segment i).pts, ¬ (h.segment i).IsEnd m →
    (m ∈ regionPts E → (h.lefts i).data.fromResult = g false) ∧
      (m ∉ regionPts E → (h.lefts i).data.fromResult = g true)
  /-- decisions about unfinished segments -/
  rest : ∀ i, Ev.left i ∈ log.map Prod.fst → i ∉ rightsOf log → h.first i = true →
    (∀ k < h.count, h.first k = false → k ∈ rightsOf log) → (h.lefts i).data.fromResult = g true
  other : ∀ i, Ev.left i ∈ log.map Prod.fst → h.first i = false → (h.lefts i).data.fromResult = false

theorem mixedSweep_end {sel : Bool → MixedData → Bool} {g : Bool → Bool}
    (hg : ∀ b d, sel b d = (b && g d.outside)) (tb : TieBreak) (xmax : Option ℚ) {L : List Segment}
    {polygons : List Polygon} (hL : NoOverlap L) (hE : IsBoundary (polygons.flatMap polygonEdges)) :
    ∃ h log, mixedSweep sel tb xmax L polygons = .ok (h, log) ∧
      MixedEnd g h log (stopAt xmax) L (polygons.flatMap polygonEdges) := by
  classical
  set E := polygons.flatMap polygonEdges with hEdef
  have ok := operandsOk_marked hL hE.noOverlap
  obtain ⟨s, log, e, r, f, nd, pr, hok, lm⟩ := sweep_final (mixedOps sel) ⟨false, false, false, false⟩ tb
    (stopAt xmax) ok (stopAt_mono xmax)
  set h := s.store.heap
  set F := rightsOf log.reverse with hF
  have eF : F = (log.filterMap fun (e, i) => if Heap.isLeft e then none else some i).reverse := by
    rw [hF, rightsOf, List.filterMap_reverse]
  rw [← eF] at f
  have ff := flags_final (mixedFlags sel g hg) ok (stopAt_mono xmax) r eF f lm
  have mem' : ∀ e, e ∈ log.reverse.map Prod.fst ↔ e ∈ log.map Prod.fst := by
    intro e; rw [List.map_reverse, List.mem_reverse]
  refine ⟨h, log.reverse, ?_, ⟨f, ?_, ?_, hok, ?_, ?_, ?_, ?_⟩⟩
  · unfold mixedSweep
    rw [e]
  · rw [List.map_reverse]; exact List.nodup_reverse.2 nd
  · intro x hx; exact pr x (List.mem_reverse.1 hx)
  · intro e; rw [mem']; exact lm e
  · intro i hi hf m hm hme
    have hv : ¬ Vertex (L ++ E) m := by
      intro hv
      have := (f.edge hi).inner m hm
      rw [marked_fst] at this
      exact hme (this hv)
    have hX : (h.lefts i).data.otherInteriorToLeft = decide (Inside E m) := by
      have := ff.side false hE i hi hf m hm hv
      rw [Bool.eq_iff_iff, decide_eq_true_eq]
      refine this.trans ?_
      simp [operand, Xor]
    rcases ff.res i hi with ⟨k, hk, hki, hs, hr⟩ | ⟨hn, hr⟩
    · have hr' : (h.lefts i).data.fromResult = g false := by
        have : (h.lefts i).data.fromResult = (h.first i && g (!(h.lefts i).data.otherInteriorToLeft && !true)) := by
          have hk : (mixedFlags sel g hg).pairKind h i k = true := by
            unfold Flags.pairKind; split <;> rfl
          rw [hk] at hr; exact hr
        rw [this, hf]; simp
      have hkf : h.first k = false := by
        have := f.op k (f.bound k hk) i (f.bound i hi) hki hs
        rw [hf] at this
        simpa using this
      have : m ∈ segsPts E := f.mem_right.2 ⟨k, f.bound k hk, hkf, by rw [hs]; exact hm⟩
      exact ⟨fun _ => hr', fun hm => absurd (Or.inl this) hm⟩
    · have hr' : (h.lefts i).data.fromResult = g (!decide (Inside E m)) := by
        have : (h.lefts i).data.fromResult = (h.first i && g (!(h.lefts i).data.otherInteriorToLeft && !false)) := hr
        rw [this, hf, hX]; simp
      have hns : m ∉ segsPts E := by
        intro hmE
        obtain ⟨k, hk, hkf, hmk⟩ := f.mem_right.1 hmE
        have hki : k ≠ i := by rintro rfl; rw [hf] at hkf; cases hkf
        rcases f.pair i hi k hk with ⟨e, -⟩ | g
        · exact hn k hk hki e.symm
        · exact hme (g m hm hmk).1
      refine ⟨fun hm => ?_, fun hm => ?_⟩
      · rw [hr', decide_eq_true (hm.resolve_left hns)]; rfl
      · rw [hr', decide_eq_false fun hin => hm (Or.inr hin)]; rfl
  · intro i hlog hi hf hall
    rw [mem'] at hlog
    obtain ⟨-, hr⟩ := ff.rest false hE i hlog hi hf hall
    have : (h.lefts i).data.fromResult = (h.first i && g (!false && !false)) := hr
    rw [this, hf]; simp
  · intro i hlog hf
    rw [mem'] at hlog
    obtain ⟨x, k, hr⟩ := ff.any i hlog
    have : (h.lefts i).data.fromResult = (h.first i && g (!x && !k)) := hr
    rw [this, hf]; simp

end Clipping

import Verif.Model.Holeless
import Verif.Lemmas.Mixed.Core
import Verif.Lemmas.Region.OverlayDegree

/-!
# The sweep of two shaped operands
-/

namespace Clipping

open Sweep

/-- kind of the overlap of edges of both operands, from `interior_to_left` -/
def overlapKindOf (i j : Bool) : OverlapKind := if i = j then .same else .different

/-- the fields which decide about a segment -/
def decisionData (x : Bool) (k : OverlapKind) : ShapedData := ⟨false, x, k, false, none⟩

/-- The operation selects segments by the rule. -/
structure IsShaped (O : Ops ShapedData) (rule : ShapedRule) : Prop where
  tail : ∀ d, O.tail d = ⟨d.interiorToLeft, false, .none, false, none⟩
  create : ∀ b, O.create b = ⟨b, false, .none, false, none⟩
  overlap : O.overlap = shapedOverlap
  itl : ∀ h i b, (O.compute h i b).interiorToLeft = (h.lefts i).data.interiorToLeft
  oth : ∀ h i b, (O.compute h i b).otherInteriorToLeft = otherInterior h i b
  mark : ∀ h i b, (O.compute h i b).overlapKind = (h.lefts i).data.overlapKind
  res : ∀ h i b, (O.compute h i b).fromShapedResult = rule (h.first i) (decisionData (otherInterior h i b)
    (h.lefts i).data.overlapKind)

/-- The rule reads the two fields only. -/
def RuleOk (rule : ShapedRule) : Prop := ∀ b d, rule b d = rule b (decisionData d.otherInteriorToLeft d.overlapKind)

theorem intersectionRule_ok : RuleOk intersectionRule := fun _ _ => rfl
theorem differenceRule_ok : RuleOk differenceRule := fun _ _ => rfl
theorem symmetricDifferenceRule_ok : RuleOk symmetricDifferenceRule := fun _ _ => rfl
theorem unionRule_ok : RuleOk unionRule := fun _ _ => rfl

theorem isShaped_holeless {rule : ShapedRule} (hr : RuleOk rule) : IsShaped (holelessOps rule) rule :=
  ⟨fun _ => rfl, fun _ => rfl, rfl, fun _ _ _ => rfl, fun _ _ _ => rfl, fun _ _ _ => rfl, fun _ _ _ => hr _ _⟩

theorem isShaped_holey {rule : ShapedRule} (hr : RuleOk rule) : IsShaped (holeyOps rule) rule :=
  ⟨fun _ => rfl, fun _ => rfl, rfl, fun _ _ _ => rfl, fun _ _ _ => rfl, fun _ _ _ => rfl, fun _ _ _ => hr _ _⟩

/-- Decisions of the operations on shaped operands. -/
def shapedFlags {O : Ops ShapedData} {rule : ShapedRule} (hO : IsShaped O rule) : Flags O OverlapKind where
  itl := ShapedData.interiorToLeft
  oth := ShapedData.otherInteriorToLeft
  res := ShapedData.fromShapedResult
  mark := ShapedData.overlapKind
  none := .none
  kind := overlapKindOf
  rule := fun first x k => rule first (decisionData x k)
  tail_itl _ := by rw [hO.tail]
  tail_oth _ := by rw [hO.tail]
  tail_mark _ := by rw [hO.tail]
  create_itl _ := by rw [hO.create]
  create_oth _ := by rw [hO.create]
  create_mark _ := by rw [hO.create]
  overlap_itl b _ _ := by rw [hO.overlap]; unfold shapedOverlap; cases b <;> exact ⟨rfl, rfl⟩
  overlap_oth b _ _ := by rw [hO.overlap]; unfold shapedOverlap; cases b <;> exact ⟨rfl, rfl⟩
  overlap_res b _ _ := by rw [hO.overlap]; unfold shapedOverlap; cases b <;> exact ⟨rfl, rfl⟩
  overlap_mark l r := by
    rw [hO.overlap]
    unfold shapedOverlap overlapKindOf
    by_cases h : l.data.interiorToLeft = r.data.interiorToLeft
    · simp [h]
    · simp [h, Ne.symm h]
  compute_itl h i b := hO.itl h i b
  compute_oth h i b := by
    rw [hO.oth]
    cases b with
    | none => rfl
    | some b =>
      simp only [otherInterior]
      by_cases e : h.first i = h.first b
      · simp [e]
      · simp [e, Ne.symm e]
  compute_mark h i b := hO.mark h i b
  compute_res h i b := by rw [hO.res, hO.oth]

/-- The rule selects the parts of the edges which separate the inside of the combination of the operands from its
outside. -/
structure RuleFor (rule : ShapedRule) (op : Bool → Bool → Bool) : Prop where
  zero : op false false = false
  first : ∀ x, rule true (decisionData x .none) = xor (op true x) (op false x)
  second : ∀ x, rule false (decisionData x .none) = xor (op x true) (op x false)
  same : ∀ x y, xor (rule true (decisionData x .same)) (rule false (decisionData y .same)) =
    xor (op true true) (op false false)
  different : ∀ x y, xor (rule true (decisionData x .different)) (rule false (decisionData y .different)) =
    xor (op true false) (op false true)
  once : ∀ x y k, k ≠ .none → (rule true (decisionData x k) && rule false (decisionData y k)) = false

theorem intersectionRule_for : RuleFor intersectionRule (fun a b => a && b) := by
  refine ⟨rfl, fun x => ?_, fun x => ?_, fun x y => ?_, fun x y => ?_, fun x y k hk => ?_⟩
  · cases x <;> rfl
  · cases x <;> rfl
  · cases x <;> cases y <;> rfl
  · cases x <;> cases y <;> rfl
  · cases k
    · exact absurd rfl hk
    · cases x <;> cases y <;> rfl
    · cases x <;> cases y <;> rfl

theorem differenceRule_for : RuleFor differenceRule (fun a b => a && !b) := by
  refine ⟨rfl, fun x => ?_, fun x => ?_, fun x y => ?_, fun x y => ?_, fun x y k hk => ?_⟩
  · cases x <;> rfl
  · cases x <;> rfl
  · cases x <;> cases y <;> rfl
  · cases x <;> cases y <;> rfl
  · cases k
    · exact absurd rfl hk
    · cases x <;> cases y <;> rfl
    · cases x <;> cases y <;> rfl

theorem symmetricDifferenceRule_for : RuleFor symmetricDifferenceRule xor := by
  refine ⟨rfl, fun x => ?_, fun x => ?_, fun x y => ?_, fun x y => ?_, fun x y k hk => ?_⟩
  · cases x <;> rfl
  · cases x <;> rfl
  · cases x <;> cases y <;> rfl
  · cases x <;> cases y <;> rfl
  · cases k
    · exact absurd rfl hk
    · cases x <;> cases y <;> rfl
    · cases x <;> cases y <;> rfl

theorem unionRule_for : RuleFor unionRule (fun a b => a || b) := by
  refine ⟨rfl, fun x => ?_, fun x => ?_, fun x y => ?_, fun x y => ?_, fun x y k hk => ?_⟩
  · cases x <;> rfl
  · cases x <;> rfl
  · cases x <;> cases y <;> rfl
  · cases x <;> cases y <;> rfl
  · cases k
    · exact absurd rfl hk
    · cases x <;> cases y <;> rfl
    · cases x <;> cases y <;> rfl

/-- combination of propositions -/
def opProp (op : Bool → Bool → Bool) (P Q : Prop) : Prop :=
  open Classical in op (decide P) (decide Q) = true

/-- An operand which reaches beyond the early exit does not matter there. -/
def StopOk (op : Bool → Bool → Bool) (xmax : Option ℚ) (A B : List Segment) : Prop :=
  ∀ xm, xmax = some xm →
    ((∀ q ∈ segsPts A, q.x ≤ xm) ∨ (∀ q ∈ segsPts B, q.x ≤ xm) ∧ ∀ x, op x false = op false false) ∧
    ((∀ q ∈ segsPts B, q.x ≤ xm) ∨ (∀ q ∈ segsPts A, q.x ≤ xm) ∧ ∀ x, op false x = op false false)

/-- the left events of the processed right events -/
def finishedLefts (h : Heap ShapedData) (events : List Ev) : List ℕ :=
  events.filterMap fun e => match e with
    | .left _ => none
    | .right j => some (h.rights j).left

/-- numbers of the finished segments of the result -/
def resultLefts (h : Heap ShapedData) (events : List Ev) : List ℕ :=
  (finishedLefts h events).filter fun i => (h.lefts i).data.fromShapedResult

/-- the finished segments of the result -/
def resultEdges (h : Heap ShapedData) (events : List Ev) : List Segment := (resultLefts h events).map h.segment

/-- The end of the sweep of two shaped operands. -/
structure ShapedEnd (op : Bool → Bool → Bool) (h : Heap ShapedData) (events : List Ev) (stop : Point → Bool)
    (A B : List Segment) : Prop where
  ok : HeapOk h
  nodup : events.Nodup
  mem : ∀ e, e ∈ events ↔ EvOk h e ∧ stop (h.evStart e) = false
  fin : Final h (finishedLefts h events) stop (marked A B)
  mono : ∀ p q, p ≤ q → stop p = true → stop q = true
  /-- both ends of the segments of the result have been processed -/
  both : ∀ i, Ev.left i ∈ events → (h.lefts i).data.fromShapedResult = true → i ∈ resultLefts h events
  noOverlap : NoOverlap (resultEdges h events)
  endsOnly : EndsOnly (resultEdges h events)
  overlay : Overlay A B (resultEdges h events) (opProp op)

theorem opProp_true {op : Bool → Bool → Bool} {P Q : Prop} {a b : Bool} (ha : a = true ↔ P) (hb : b = true ↔ Q) :
    opProp op P Q ↔ op a b = true := by
  classical
  unfold opProp
  have e1 : decide P = a := by rw [Bool.eq_iff_iff, decide_eq_true_eq, ha]
  have e2 : decide Q = b := by rw [Bool.eq_iff_iff, decide_eq_true_eq, hb]
  have : ∀ (i1 : Decidable P) (i2 : Decidable Q), (op (@decide P i1) (@decide Q i2) = true ↔ op a b = true) := by
    intro i1 i2
    have h1 : @decide P i1 = a := by rw [← e1]; congr
    have h2 : @decide Q i2 = b := by rw [← e2]; congr
    rw [h1, h2]
  exact this _ _

theorem ind_xor (a b : Bool) : ind ((xor a b) = true) = ind (a = true) + ind (b = true) := by
  cases a <;> cases b
  · rw [ind_neg (P := (xor false false) = true) (by simp), ind_neg (P := false = true) (by simp)]; rfl
  · rw [ind_pos (P := (xor false true) = true) (by simp), ind_neg (P := false = true) (by simp),
      ind_pos (P := true = true) rfl]; rfl
  · rw [ind_pos (P := (xor true false) = true) (by simp), ind_neg (P := false = true) (by simp),
      ind_pos (P := true = true) rfl]; rfl
  · rw [ind_neg (P := (xor true true) = true) (by simp), ind_pos (P := true = true) rfl]; decide

/-- Counting in a list without repetitions all but one element of which do not count. -/
theorem sum_ind_one {l : List ℕ} (nd : l.Nodup) {P : ℕ → Prop} {i : ℕ} (hP : ∀ k ∈ l, P k → k = i) :
    (l.map fun k => ind (P k)).sum = ind (i ∈ l ∧ P i) := by
  induction l with
  | nil => rw [ind_neg (by simp)]; simp
  | cons a l ih =>
    rw [List.map_cons, List.sum_cons, ih (List.nodup_cons.1 nd).2 fun k hk => hP k (by simp [hk])]
    by_cases hai : a = i
    · subst hai
      rw [ind_neg (P := a ∈ l ∧ P a) fun h => (List.nodup_cons.1 nd).1 h.1, add_zero]
      exact ind_congr (by simp)
    · rw [ind_neg (P := P a) fun h => hai (hP a (by simp) h), zero_add]
      exact ind_congr (by simp [Ne.symm hai])

theorem shapedSweep_end {O : Ops ShapedData} {rule : ShapedRule} (hO : IsShaped O rule) {op : Bool → Bool → Bool}
    (hop : RuleFor rule op) (tb : TieBreak) (xmax : Option ℚ) {A B : List Segment} (hA : IsBoundary A)
    (hB : IsBoundary B) (hst : StopOk op xmax A B) :
    ∃ h events, shapedSweep O tb xmax A B = .ok (h, events) ∧ ShapedEnd op h events (stopAt xmax) A B := by
  classical
  have ok := operandsOk_marked hA.noOverlap hB.noOverlap
  obtain ⟨s, log, e, r, f, nd, pr, hok, lm⟩ := sweep_final O ⟨false, false, .none, false, none⟩ tb
    (stopAt xmax) ok (stopAt_mono xmax)
  set h := s.store.heap
  have ff := flags_final (shapedFlags hO) ok (stopAt_mono xmax) r rfl f lm
  set events := (log.reverse).map Prod.fst with hev
  set F := (log.filterMap fun (e, i) => if Heap.isLeft e then none else some i).reverse with hF
  have eF : finishedLefts h events = F := by
    rw [hF, finishedLefts, hev, ← List.filterMap_reverse, List.filterMap_map]
    refine List.filterMap_congr fun x hx => ?_
    have := pr x (List.mem_reverse.1 hx)
    obtain ⟨x1, x2⟩ := x
    cases x1 with
    | left i => simp [Heap.isLeft]
    | right j => simp only [Heap.isLeft, Function.comp]; simp only [Heap.primary] at this; simp [this]
  have mem' : ∀ e, e ∈ events ↔ e ∈ log.map Prod.fst := by
    intro e; rw [hev, List.map_reverse, List.mem_reverse]
  have vertex : ∀ {i m}, i ∈ F → m ∈ (h.segment i).pts → ¬ Vertex (A ++ B) m → ¬ (h.segment i).IsEnd m := by
    intro i m hi hm hv he
    have g := f.vert i (f.bound i hi)
    rw [marked_fst] at g
    rcases he with rfl | rfl
    exacts [hv g.1, hv g.2]
  have stopx : ∀ i < h.count, i ∉ F → ∃ xm, xmax = some xm ∧ xm < (h.stop i).x := by
    intro i hi hiF
    have := (f.done i hi).not.1 hiF
    unfold stopAt at this
    cases xmax with
    | none => simp at this
    | some xm => exact ⟨xm, rfl, by simpa using this⟩
  -- unfinished segments of an operand
  have unfin : ∀ o, ∀ i < h.count, h.first i = !o → i ∉ F → ∃ xm, xmax = some xm ∧ xm < (h.stop i).x ∧
      (∀ q ∈ segsPts (operand A B o), q.x ≤ xm) ∧
      (∀ x, if o then op false x = op false false else op x false = op false false) := by
    intro o i hi hf hiF
    obtain ⟨xm, e1, e2⟩ := stopx i hi hiF
    have mem : h.stop i ∈ segsPts (operand A B (!o)) := by
      have : h.stop i ∈ (h.segment i).pts := Segment.stop_mem _
      cases o
      · exact f.mem_left.2 ⟨i, hi, hf, this⟩
      · exact f.mem_right.2 ⟨i, hi, hf, this⟩
    obtain ⟨h1, h2⟩ := hst xm e1
    refine ⟨xm, e1, e2, ?_⟩
    cases o
    · rcases h1 with g | g
      · exact absurd (g _ mem) (not_le.2 e2)
      · exact ⟨g.1, fun x => by simpa using g.2 x⟩
    · rcases h2 with g | g
      · exact absurd (g _ mem) (not_le.2 e2)
      · exact ⟨g.1, fun x => by simpa using g.2 x⟩
  have finall : ∀ o, ∀ i < h.count, h.first i = !o → i ∉ F → ∀ k < h.count, h.first k = o → k ∈ F := by
    intro o i hi hf hiF k hk hko
    obtain ⟨xm, e1, -, g, -⟩ := unfin o i hi hf hiF
    rw [f.done k hk, e1]
    have : h.stop k ∈ segsPts (operand A B o) := by
      have : h.stop k ∈ (h.segment k).pts := Segment.stop_mem _
      cases o
      · exact f.mem_right.2 ⟨k, hk, hko, this⟩
      · exact f.mem_left.2 ⟨k, hk, hko, this⟩
    unfold stopAt
    simpa using g _ this
  have bd : ∀ o, IsBoundary (operand A B o) := by
    intro o; cases o
    · exact hB
    · exact hA
  have isF : ∀ i, i ∈ resultLefts h events ↔ i ∈ F ∧ (h.lefts i).data.fromShapedResult = true := by
    intro i; rw [resultLefts, eF, List.mem_filter]
  -- segments of the same place
  have twin : ∀ {i j m}, i < h.count → j < h.count → h.first i = true → h.first j = false → m ∈ (h.segment i).pts →
      m ∈ (h.segment j).pts → ¬ Vertex (A ++ B) m → h.segment i = h.segment j ∧ i ∈ F ∧ j ∈ F := by
    intro i j m hi hj hfi hfj hmi hmj hv
    by_cases hiF : i ∈ F
    · rcases f.pair i hiF j hj with ⟨e, g⟩ | g
      · exact ⟨e, hiF, g⟩
      · exact absurd (g m hmi hmj).1 (vertex hiF hmi hv)
    · have hjF := finall false i hi (by rw [hfi]; rfl) hiF j hj hfj
      rcases f.pair j hjF i hi with ⟨e, g⟩ | g
      · exact absurd g hiF
      · exact absurd (g m hmj hmi).1 (vertex hjF hmj hv)
  -- decisions of segments of one operand only
  have single : ∀ o, ∀ i ∈ F, h.first i = !o → ∀ m ∈ (h.segment i).pts, ¬ Vertex (A ++ B) m →
      m ∉ segsPts (operand A B o) →
      (h.lefts i).data.fromShapedResult = rule (!o) (decisionData (decide (Inside (operand A B o) m)) .none) := by
    intro o i hi hf m hm hv hno
    have hX : (h.lefts i).data.otherInteriorToLeft = decide (Inside (operand A B o) m) := by
      have := ff.side o (bd o) i hi hf m hm hv
      rw [Bool.eq_iff_iff, decide_eq_true_eq]
      refine this.trans ?_
      simp [hno, Xor]
    rcases ff.res i hi with ⟨k, hk, hki, hs, -⟩ | ⟨-, hr⟩
    · exfalso
      have hkf : h.first k = o := by
        have := f.op k (f.bound k hk) i (f.bound i hi) hki hs
        rw [hf] at this
        simpa using this
      apply hno
      have hmk : m ∈ (h.segment k).pts := by rw [hs]; exact hm
      cases o
      · exact f.mem_right.2 ⟨k, f.bound k hk, hkf, hmk⟩
      · exact f.mem_left.2 ⟨k, f.bound k hk, hkf, hmk⟩
    · have hr' : (h.lefts i).data.fromShapedResult =
          rule (h.first i) (decisionData (h.lefts i).data.otherInteriorToLeft .none) := hr
      rw [hr', hf, hX]
  -- decisions of pairs
  have pairs : ∀ i ∈ F, ∀ j ∈ F, h.first i = true → h.first j = false → h.segment i = h.segment j →
      ∃ x y, (h.lefts i).data.fromShapedResult = rule true (decisionData x (overlapKindOf
        (h.lefts i).data.interiorToLeft (h.lefts j).data.interiorToLeft)) ∧
      (h.lefts j).data.fromShapedResult = rule false (decisionData y (overlapKindOf
        (h.lefts i).data.interiorToLeft (h.lefts j).data.interiorToLeft)) := by
    intro i hi j hj hfi hfj hs
    have hij : i ≠ j := by rintro rfl; rw [hfi] at hfj; cases hfj
    have hin := f.bound i hi
    have hjn := f.bound j hj
    have third : ∀ k < h.count, k ≠ i → h.segment k = h.segment i → k = j := by
      intro k hk hki hks
      by_contra hkj
      have h1 := f.op k hk i hin hki hks
      have h2 := f.op k hk j hjn hkj (hks.trans hs)
      rw [hfi] at h1
      rw [hfj] at h2
      revert h1 h2
      cases h.first k <;> simp
    have third' : ∀ k < h.count, k ≠ j → h.segment k = h.segment j → k = i := by
      intro k hk hkj hks
      by_contra hki
      exact hkj (third k hk hki (hks.trans hs.symm))
    refine ⟨(h.lefts i).data.otherInteriorToLeft, (h.lefts j).data.otherInteriorToLeft, ?_, ?_⟩
    · rcases ff.res i hi with ⟨k, hk, hki, hks, hr⟩ | ⟨hn, -⟩
      · have := third k (f.bound k hk) hki hks
        subst this
        have hr' : (h.lefts i).data.fromShapedResult = rule (h.first i)
          (decisionData (h.lefts i).data.otherInteriorToLeft ((shapedFlags hO).pairKind h i k)) := hr
        rw [hr', hfi]
        unfold Flags.pairKind
        rw [hfi]
        rfl
      · exact absurd hs.symm (hn j hjn hij.symm)
    · rcases ff.res j hj with ⟨k, hk, hkj, hks, hr⟩ | ⟨hn, -⟩
      · have := third' k (f.bound k hk) hkj hks
        subst this
        have hr' : (h.lefts j).data.fromShapedResult = rule (h.first j)
          (decisionData (h.lefts j).data.otherInteriorToLeft ((shapedFlags hO).pairKind h j k)) := hr
        rw [hr', hfj]
        unfold Flags.pairKind
        rw [hfj]
        rfl
      · exact absurd hs (hn i hin hij)
  have notBoth : ∀ i ∈ resultLefts h events, ∀ j ∈ resultLefts h events, i ≠ j → h.segment i ≠ h.segment j := by
    intro i hi j hj hij hs
    rw [isF] at hi hj
    have hne := f.op i (f.bound i hi.1) j (f.bound j hj.1) hij hs
    have main : ∀ i ∈ F, ∀ j ∈ F, h.first i = true → h.first j = false → h.segment i = h.segment j →
        (h.lefts i).data.fromShapedResult = true → (h.lefts j).data.fromShapedResult = true → False := by
      intro i hi j hj hfi hfj hs ri rj
      obtain ⟨x, y, e1, e2⟩ := pairs i hi j hj hfi hfj hs
      have := hop.once x y (overlapKindOf (h.lefts i).data.interiorToLeft (h.lefts j).data.interiorToLeft)
        (by unfold overlapKindOf; split <;> simp)
      rw [← e1, ← e2, ri, rj] at this
      cases this
    cases hfi : h.first i
    · cases hfj : h.first j
      · exact hne (hfi.trans hfj.symm)
      · exact main j hj.1 i hi.1 hfj hfi hs.symm hj.2 hi.2
    · cases hfj : h.first j
      · exact main i hi.1 j hj.1 hfi hfj hs hi.2 hj.2
      · exact hne (hfi.trans hfj.symm)
  have ndR : (resultLefts h events).Nodup := by
    rw [resultLefts, eF]; exact f.nodup.filter _
  have nover : NoOverlap (resultEdges h events) := by
    refine ⟨?_, ?_⟩
    · intro t ht
      obtain ⟨i, hi, rfl⟩ := List.mem_map.1 ht
      rw [isF] at hi
      exact (f.lt i (f.bound i hi.1)).ne
    · rw [resultEdges, List.pairwise_map]
      refine List.Pairwise.imp_of_mem ?_ ndR
      rintro i j hi hj hij ⟨q₁, q₂, hq, a1, a2, b1, b2⟩
      have hs := notBoth i hi j hj hij
      rw [isF] at hi hj
      rcases f.pair i hi.1 j (f.bound j hj.1) with ⟨e, -⟩ | g
      · exact hs e
      · have e1 := g q₁ a1 b1
        have e2 := g q₂ a2 b2
        have l1 := f.lt i (f.bound i hi.1)
        have l2 := f.lt j (f.bound j hj.1)
        apply hs
        have key : ∀ {a b c d : Point}, a < b → c < d → (q₁ = a ∨ q₁ = b) → (q₁ = c ∨ q₁ = d) → (q₂ = a ∨ q₂ = b) →
            (q₂ = c ∨ q₂ = d) → (⟨a, b⟩ : Segment) = ⟨c, d⟩ := by
          intro a b c d hab hcd h1 h2 h3 h4
          rcases h1 with rfl | rfl <;> rcases h3 with rfl | rfl
          · exact absurd rfl hq
          · rcases h2 with rfl | rfl <;> rcases h4 with rfl | rfl
            · exact absurd rfl hq
            · rfl
            · exact absurd hab hcd.asymm
            · exact absurd rfl hq
          · rcases h2 with rfl | rfl <;> rcases h4 with rfl | rfl
            · exact absurd rfl hq
            · exact absurd hab hcd.asymm
            · rfl
            · exact absurd rfl hq
          · exact absurd rfl hq
        exact key l1 l2 e1.1 e1.2 e2.1 e2.2
  have ends : EndsOnly (resultEdges h events) := by
    rw [resultEdges, EndsOnly, List.pairwise_map]
    refine List.Pairwise.imp_of_mem ?_ ndR
    intro i j hi hj hij
    have hs := notBoth i hi j hj hij
    rw [isF] at hi hj
    rcases f.pair i hi.1 j (f.bound j hj.1) with ⟨e, -⟩ | g
    · exact absurd e hs
    · exact g
  refine ⟨h, events, ?_, hok, ?_, ?_, ?_, stopAt_mono xmax, ?_, nover, ends, ?_⟩
  · unfold shapedSweep
    rw [e]
  · rw [hev, List.map_reverse]; exact List.nodup_reverse.2 nd
  · intro e; rw [mem']; exact lm e
  · rw [eF]; exact f
  · intro i hlog hr
    rw [mem'] at hlog
    rw [isF]
    refine ⟨?_, hr⟩
    by_contra hiF
    have hin : i < h.count := ((lm _).1 hlog).1
    have hfi : h.first i = !(!h.first i) := by simp
    obtain ⟨xm, -, -, -, g⟩ := unfin (!h.first i) i hin hfi hiF
    obtain ⟨-, hr'⟩ := ff.rest (!h.first i) (bd _) i hlog hiF hfi (finall _ i hin hfi hiF)
    have hr' : (h.lefts i).data.fromShapedResult = rule (h.first i) (decisionData false .none) := hr'
    rw [hr'] at hr
    cases hc : h.first i
    · rw [hc, hop.second] at hr
      have := g true
      simp only [hc, Bool.not_false, if_true] at this
      rw [this] at hr; simp at hr
    · rw [hc, hop.first] at hr
      have := g true
      simp only [hc, Bool.not_true, Bool.false_eq_true, if_false] at this
      rw [this] at hr; simp at hr
  · refine ⟨hA, hB, ?_, nover.1, ?_, ?_, ?_⟩
    · rw [opProp_true (a := false) (b := false) (by simp) (by simp), hop.zero]; simp
    · intro t ht
      obtain ⟨i, hi, rfl⟩ := List.mem_map.1 ht
      rw [isF] at hi
      have := (f.edge hi.1).within
      rwa [marked_fst] at this
    · intro t ht
      obtain ⟨i, hi, rfl⟩ := List.mem_map.1 ht
      rw [isF] at hi
      have := f.vert i (f.bound i hi.1)
      rwa [marked_fst] at this
    · intro m hv
      set a := decide (Inside A m) with ha
      set b := decide (Inside B m) with hb
      have ha' : a = true ↔ Inside A m := by rw [ha, decide_eq_true_eq]
      have hb' : b = true ↔ Inside B m := by rw [hb, decide_eq_true_eq]
      have na : (!a) = true ↔ ¬ Inside A m := by rw [← ha']; simp
      have nb : (!b) = true ↔ ¬ Inside B m := by rw [← hb']; simp
      have xt : ∀ {P : Prop}, Xor P True ↔ ¬ P := by intro P; unfold Xor; tauto
      have xf : ∀ {P : Prop}, Xor P False ↔ P := by intro P; unfold Xor; tauto
      rw [resultEdges, List.map_map]
      -- an unfinished segment
      have outside : ∀ o, ∀ i < h.count, h.first i = !o → i ∉ F → m ∈ (h.segment i).pts →
          ¬ Inside (operand A B o) m := by
        intro o i hi hf hiF hm
        obtain ⟨xm, -, e2, g, -⟩ := unfin o i hi hf hiF
        have all := finall o i hi hf hiF
        have offB : ∀ q ∈ (Segment.mk m (h.stop i)).pts, q ∉ segsPts (operand A B o) := by
          intro q hq hqB
          have hqi : q ∈ (h.segment i).pts := pts_convex hm (Segment.stop_mem (h.segment i)) hq
          obtain ⟨k, hk, hko, hqk⟩ : ∃ k < h.count, h.first k = o ∧ q ∈ (h.segment k).pts := by
            cases o
            · exact f.mem_right.1 hqB
            · exact f.mem_left.1 hqB
          rcases f.pair k (all k hk hko) i hi with ⟨-, g'⟩ | g'
          · exact hiF g'
          · rcases (g' q hqk hqi).2 with e | e
            · have le1 := Segment.lo_le_of_mem hq
              have : m ≤ h.stop i := by
                have := Segment.le_hi_of_mem hm
                exact this.trans_eq (max_eq_right (f.lt i hi).le)
              rw [Segment.lo, min_eq_left this] at le1
              have le2 := Segment.lo_le_of_mem hm
              replace le2 : h.start i ≤ m := (min_eq_left (f.lt i hi).le).symm.trans_le le2
              rw [e] at le1
              have hmv := f.vert i hi
              rw [marked_fst] at hmv
              have : m = h.start i := le_antisymm le1 le2
              exact hv (this ▸ hmv.1)
            · have := g q hqB
              rw [e] at this
              exact absurd this (not_le.2 e2)
        rw [inside_const (bd o).noOverlap.1 (bd o).even (s := ⟨m, h.stop i⟩) offB]
        unfold Inside
        rw [List.countP_eq_zero.2]
        · simp
        · intro e he
          simp only [decide_eq_true_eq]
          rintro ⟨-, c, -⟩
          have := g e.hi ⟨e, he, e.hi_mem⟩
          linarith
      by_cases hmA : m ∈ segsPts A
      · obtain ⟨i, hi, hfi, hmi⟩ := f.mem_left.1 hmA
        by_cases hmB : m ∈ segsPts B
        · obtain ⟨j, hj, hfj, hmj⟩ := f.mem_right.1 hmB
          obtain ⟨hs, hiF, hjF⟩ := twin hi hj hfi hfj hmi hmj hv
          have hij : i ≠ j := by rintro rfl; rw [hfi] at hfj; cases hfj
          have e1 : ∀ k ∈ resultLefts h events, m ∈ (h.segment k).pts ↔ k = i ∨ k = j := by
            intro k hk
            have hkn := f.bound k ((isF k).1 hk).1
            constructor
            · intro hmk
              cases hfk : h.first k
              · right; exact ff.uniq k hkn j hj (hfk.trans hfj.symm) m hmk hmj hv
              · left; exact ff.uniq k hkn i hi (hfk.trans hfi.symm) m hmk hmi hv
            · rintro (rfl | rfl)
              exacts [hmi, hmj]
          have e2 : ((resultLefts h events).map ((fun t : Segment => ind (m ∈ t.pts)) ∘ h.segment)).sum =
              ind (i ∈ resultLefts h events) + ind (j ∈ resultLefts h events) := by
            have : ∀ k ∈ resultLefts h events, ((fun t : Segment => ind (m ∈ t.pts)) ∘ h.segment) k =
                ind (k = i) + ind (k = j) := by
              intro k hk
              rw [← ind_or (by rintro ⟨rfl, h⟩; exact hij h)]
              exact ind_congr (e1 k hk)
            rw [List.map_congr_left this, List.sum_map_add, sum_ind_one ndR (i := i) fun k _ h => h,
              sum_ind_one ndR (i := j) fun k _ h => h]
            simp
          rw [e2]
          obtain ⟨x, y, r1, r2⟩ := pairs i hiF j hjF hfi hfj hs
          have o1 := ff.own true hA i hi hfi m hmi hv
          have o2 := ff.own false hB j hj hfj m hmj hv
          have i1 : (h.lefts i).data.interiorToLeft = !a := by
            rw [Bool.eq_iff_iff]; exact o1.trans na.symm
          have i2 : (h.lefts j).data.interiorToLeft = !b := by
            rw [Bool.eq_iff_iff]; exact o2.trans nb.symm
          rw [i1, i2] at r1 r2
          rw [ind_congr (isF i), ind_congr (isF j), ind_congr (and_iff_right hiF), ind_congr (and_iff_right hjF), r1, r2,
            ← ind_xor]
          have t1 : (m ∈ segsPts A) = True := propext (iff_true_intro hmA)
          have t2 : (m ∈ segsPts B) = True := propext (iff_true_intro hmB)
          rw [t1, t2, propext xt, propext xt, ind_congr (opProp_true ha' hb'), ind_congr (opProp_true na nb), ← ind_xor]
          cases a <;> cases b
          · rw [show overlapKindOf (!false) (!false) = .same from rfl, hop.same]
            exact ind_congr (by rw [Bool.xor_comm]; rfl)
          · rw [show overlapKindOf (!false) (!true) = .different from rfl, hop.different]
            exact ind_congr (by rw [Bool.xor_comm]; rfl)
          · rw [show overlapKindOf (!true) (!false) = .different from rfl, hop.different]; rfl
          · rw [show overlapKindOf (!true) (!true) = .same from rfl, hop.same]; rfl
        · have e2 : ((resultLefts h events).map ((fun t : Segment => ind (m ∈ t.pts)) ∘ h.segment)).sum =
              ind (i ∈ resultLefts h events ∧ m ∈ (h.segment i).pts) := by
            refine sum_ind_one ndR (P := fun k => m ∈ (h.segment k).pts) fun k hk hmk => ?_
            have hkn := f.bound k ((isF k).1 hk).1
            cases hfk : h.first k
            · exact absurd (f.mem_right.2 ⟨k, hkn, hfk, hmk⟩) hmB
            · exact ff.uniq k hkn i hi (hfk.trans hfi.symm) m hmk hmi hv
          rw [e2, ind_congr (and_iff_left hmi), ind_congr (isF i)]
          have t1 : (m ∈ segsPts A) = True := propext (iff_true_intro hmA)
          have t2 : (m ∈ segsPts B) = False := propext (iff_false_intro hmB)
          rw [t1, t2, propext xt, propext xf, ind_congr (opProp_true ha' hb'), ind_congr (opProp_true na hb'), ← ind_xor]
          by_cases hiF : i ∈ F
          · rw [ind_congr (and_iff_right hiF)]
            have := single false i hiF (by rw [hfi]; rfl) m hmi hv hmB
            have e3 : decide (Inside (operand A B false) m) = b := rfl
            rw [this, e3, Bool.not_false, hop.first]
            cases a
            · exact ind_congr (by rw [Bool.xor_comm]; rfl)
            · rfl
          · have hn := outside false i hi (by rw [hfi]; rfl) hiF hmi
            have hbf : b = false := by rw [hb]; exact decide_eq_false hn
            obtain ⟨xm, -, -, -, g⟩ := unfin false i hi (by rw [hfi]; rfl) hiF
            have g' : ∀ x, op x false = op false false := fun x => by simpa using g x
            rw [ind_neg (fun h => hiF h.1), hbf, g' a, g' (!a)]
            exact (ind_neg (by simp)).symm
      · by_cases hmB : m ∈ segsPts B
        · obtain ⟨i, hi, hfi, hmi⟩ := f.mem_right.1 hmB
          have e2 : ((resultLefts h events).map ((fun t : Segment => ind (m ∈ t.pts)) ∘ h.segment)).sum =
              ind (i ∈ resultLefts h events ∧ m ∈ (h.segment i).pts) := by
            refine sum_ind_one ndR (P := fun k => m ∈ (h.segment k).pts) fun k hk hmk => ?_
            have hkn := f.bound k ((isF k).1 hk).1
            cases hfk : h.first k
            · exact ff.uniq k hkn i hi (hfk.trans hfi.symm) m hmk hmi hv
            · exact absurd (f.mem_left.2 ⟨k, hkn, hfk, hmk⟩) hmA
          rw [e2, ind_congr (and_iff_left hmi), ind_congr (isF i)]
          have t1 : (m ∈ segsPts A) = False := propext (iff_false_intro hmA)
          have t2 : (m ∈ segsPts B) = True := propext (iff_true_intro hmB)
          rw [t1, t2, propext xt, propext xf, ind_congr (opProp_true ha' hb'), ind_congr (opProp_true ha' nb), ← ind_xor]
          by_cases hiF : i ∈ F
          · rw [ind_congr (and_iff_right hiF)]
            have := single true i hiF (by rw [hfi]; rfl) m hmi hv hmA
            have e3 : decide (Inside (operand A B true) m) = a := rfl
            rw [this, e3, Bool.not_true, hop.second]
            cases b
            · exact ind_congr (by rw [Bool.xor_comm]; rfl)
            · rfl
          · have hn := outside true i hi (by rw [hfi]; rfl) hiF hmi
            have hbf : a = false := by rw [ha]; exact decide_eq_false hn
            obtain ⟨xm, -, -, -, g⟩ := unfin true i hi (by rw [hfi]; rfl) hiF
            have g' : ∀ x, op false x = op false false := fun x => by simpa using g x
            rw [ind_neg (fun h => hiF h.1), hbf, g' b, g' (!b)]
            exact (ind_neg (by simp)).symm
        · have e2 : ((resultLefts h events).map ((fun t : Segment => ind (m ∈ t.pts)) ∘ h.segment)).sum = 0 := by
            refine List.sum_eq_zero fun x hx => ?_
            obtain ⟨k, hk, rfl⟩ := List.mem_map.1 hx
            refine ind_neg fun hmk => ?_
            have hkn := f.bound k ((isF k).1 hk).1
            cases hfk : h.first k
            · exact hmB (f.mem_right.2 ⟨k, hkn, hfk, hmk⟩)
            · exact hmA (f.mem_left.2 ⟨k, hkn, hfk, hmk⟩)
          have t1 : (m ∈ segsPts A) = False := propext (iff_false_intro hmA)
          have t2 : (m ∈ segsPts B) = False := propext (iff_false_intro hmB)
          rw [e2, t1, t2, propext xf, propext xf, CharTwo.add_self_eq_zero]

end Clipping

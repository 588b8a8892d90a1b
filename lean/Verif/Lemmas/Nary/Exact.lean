import Verif.Lemmas.Nary.General
import Verif.Lemmas.LinearSweep

/-!
# The n-ary sweep of segments without overlaps

It makes the same steps as the sweep of two operands the second of which is empty.
-/

namespace Clipping.Nary

open Sweep

variable {ε : ℚ} {Pt : List Point} {Y : ℚ → ℚ} {F : List ℕ} {p : ℚ}

/-- All segments are of the first operand. -/
def AllFirst (h : Heap Unit) : Prop := ∀ i < h.count, h.first i = true

theorem naryPrecedes_eq {h : Heap Unit} (ok : HeapOk h) (a : AllFirst h) {e f : Ev} (he : EvOk h e)
    (hf : EvOk h f) : naryPrecedes h f e = precedes h f e := by
  have fe : h.evFirst e = true := a _ (he.primary ok)
  have ff : h.evFirst f = true := a _ (hf.primary ok)
  unfold naryPrecedes precedes
  by_cases hs : h.evStart f = h.evStart e
  · unfold naryQueueLt queueLt
    simp only [hs, ne_eq, not_true_eq_false, if_false, fe, ff]
    by_cases hd : Heap.isLeft f = Heap.isLeft e
    · have swap : orientation (h.evStart e) (h.evStop f) (h.evStop e) = .collinear ↔
          orientation (h.evStart e) (h.evStop e) (h.evStop f) = .collinear := by
        rw [orientation_col, orientation_col]
        unfold cross
        constructor <;> intro g <;> linarith
      by_cases hc : orientation (h.evStart e) (h.evStop f) (h.evStop e) = .collinear
      · have hc' := swap.1 hc
        simp only [hd, not_true_eq_false, if_false, hc, hc', if_true]
        cases Heap.isLeft e <;> simp
      · have hc' : ¬ orientation (h.evStart e) (h.evStop e) (h.evStop f) = .collinear := fun g => hc (swap.2 g)
        simp [hd, hc, hc']
    · have hd' : ¬ Heap.isLeft e = Heap.isLeft f := fun g => hd g.symm
      simp [hd, hd']
  · rw [naryQueueLt_of_ne hs, naryQueueLt_of_ne (Ne.symm hs)]

theorem find_congr {β : Type} {f g : β → Bool} : ∀ {l : List β}, (∀ x ∈ l, f x = g x) → l.find? f = l.find? g
  | [], _ => rfl
  | x :: l, h => by
    rw [List.find?_cons, List.find?_cons, h x (by simp), find_congr fun y hy => h y (by simp [hy])]

theorem naryPop_eq {s : Store Unit} (ok : HeapOk s.heap) (a : AllFirst s.heap)
    (hq : ∀ e ∈ s.queue, EvOk s.heap e) (tb : TieBreak) : naryPop tb s = pop tb s := by
  unfold naryPop pop
  cases hs : s.queue with
  | nil => rfl
  | cons e q =>
    dsimp only
    rw [hs] at hq
    have : (tb.order (e :: q)).find? (fun a => (e :: q).all fun b => !naryPrecedes s.heap b a) =
        (tb.order (e :: q)).find? (fun a => (e :: q).all fun b => !precedes s.heap b a) := by
      apply find_congr
      intro x hx
      have hx' := (tb.perm _).mem_iff.1 hx
      rw [Bool.eq_iff_iff, List.all_eq_true, List.all_eq_true]
      constructor
      · intro g b hb; rw [← naryPrecedes_eq ok a (hq x hx') (hq b hb)]; exact g b hb
      · intro g b hb; rw [naryPrecedes_eq ok a (hq x hx') (hq b hb)]; exact g b hb
    rw [this]

theorem naryLineLt_eq {h : Heap Unit} (a : AllFirst h) {u v : ℕ} (hu : u < h.count) (hv : v < h.count) :
    naryLineLt h u v = lineLt h u v := by
  unfold naryLineLt lineLt
  have : h.first u = h.first v := by rw [a u hu, a v hv]
  simp only [this, ne_eq, not_true_eq_false, if_false]

theorem search_append {lt : ℕ → ℕ → Bool} {e m : ℕ} (hm : lt e m = false) (hm' : lt m e = false) :
    ∀ {t : RTree} {l₁ l₂ : List ℕ}, t.inorder = l₁ ++ m :: l₂ →
      (∀ x ∈ l₁, lt x e = true ∧ lt e x = false) → (∀ x ∈ l₂, lt e x = true) →
      t.search lt e = some l₁.length := by
  intro t
  induction t with
  | nil => intro l₁ l₂ h; simp [RTree.inorder] at h
  | node c a k b iha ihb =>
    intro l₁ l₂ h h1 h2
    simp only [RTree.inorder] at h
    simp only [RTree.search]
    rcases List.append_eq_append_iff.1 h with ⟨l, e1, e2⟩ | ⟨l, e1, e2⟩
    · -- `l₁ = a ++ l`
      cases l with
      | nil =>
        simp only [List.nil_append, List.cons.injEq] at e2
        obtain ⟨rfl, e2⟩ := e2
        rw [List.append_nil] at e1
        simp [hm, hm', e1, RTree.length_inorder]
      | cons x l =>
        simp only [List.cons_append, List.cons.injEq] at e2
        obtain ⟨rfl, e2⟩ := e2
        have hk := h1 k (by rw [e1]; simp)
        rw [hk.1, hk.2, ihb e2 (fun y hy => h1 y (by rw [e1]; simp [hy])) h2]
        simp [e1, RTree.length_inorder]
        omega
    · cases l with
      | nil =>
        simp only [List.nil_append, List.cons.injEq] at e2
        obtain ⟨rfl, e2⟩ := e2
        rw [List.append_nil] at e1
        simp [hm, hm', ← e1, RTree.length_inorder]
      | cons x l =>
        simp only [List.cons_append, List.cons.injEq] at e2
        obtain ⟨rfl, e2⟩ := e2
        have hk := h2 k (by rw [e2]; simp)
        rw [hk]
        exact iha e1 h1 fun y hy => h2 y (by rw [e2]; simp [hy])

theorem search_place {lt : ℕ → ℕ → Bool} {e : ℕ} :
    ∀ {t : RTree} {l₁ l₂ : List ℕ}, t.inorder = l₁ ++ l₂ →
      (∀ x ∈ l₁, lt x e = true ∧ lt e x = false) → (∀ x ∈ l₂, lt e x = true) →
      t.search lt e = none ∧ t.place lt e = l₁.length := by
  intro t
  induction t with
  | nil =>
    intro l₁ l₂ h _ _
    simp only [RTree.inorder] at h
    obtain ⟨rfl, rfl⟩ := List.append_eq_nil_iff.1 h.symm
    exact ⟨rfl, rfl⟩
  | node c a k b iha ihb =>
    intro l₁ l₂ h h1 h2
    simp only [RTree.inorder] at h
    simp only [RTree.search, RTree.place]
    rcases List.append_eq_append_iff.1 h with ⟨l, e1, e2⟩ | ⟨l, e1, e2⟩
    · cases l with
      | nil =>
        rw [List.nil_append] at e2
        rw [List.append_nil] at e1
        have hk := h2 k (by rw [← e2]; simp)
        rw [hk]
        exact iha (l₂ := []) (by simpa using e1.symm) h1 (by simp)
      | cons x l =>
        simp only [List.cons_append, List.cons.injEq] at e2
        obtain ⟨rfl, e2⟩ := e2
        have hk := h1 k (by rw [e1]; simp)
        obtain ⟨g1, g2⟩ := ihb e2 (fun y hy => h1 y (by rw [e1]; simp [hy])) h2
        rw [hk.1, hk.2, g1, e1]
        refine ⟨rfl, ?_⟩
        simp [RTree.length_inorder, g2]
        omega
    · have hk := h2 k (by rw [e2]; simp)
      rw [hk]
      exact iha e1 h1 fun y hy => h2 y (by rw [e2]; simp [hy])

section line
variable {s : Store Unit} {l₁ l₂ : List ℕ} {t : ℕ} {Ex : ℕ → ℕ → Prop}

/-- The tree of a sorted sweep line with `t`. -/
theorem sorted_around (S : St ε Pt Y s (l₁ ++ t :: l₂) F p Ex) (a : AllFirst s.heap) :
    (∀ x ∈ l₁, naryLineLt s.heap x t = true ∧ naryLineLt s.heap t x = false) ∧
      ∀ x ∈ l₂, naryLineLt s.heap t x = true := by
  obtain ⟨A, r, I⟩ := S.inv
  have nd := (List.nodup_append.1 I.nodup).1
  have o := I.ord
  rw [List.pairwise_append, List.pairwise_cons] at o
  rw [List.nodup_append, List.nodup_cons] at nd
  have ht : t ∈ l₁ ++ t :: l₂ := by simp
  constructor
  · intro x hx
    have hx' : x ∈ l₁ ++ t :: l₂ := by simp [hx]
    rw [naryLineLt_eq a (I.ltn hx') (I.ltn ht), naryLineLt_eq a (I.ltn ht) (I.ltn hx')]
    exact line_lt r I hx' ht (nd.2.2 x hx t (by simp)) (o.2.2 x hx t (by simp))
  · intro x hx
    have hx' : x ∈ l₁ ++ t :: l₂ := by simp [hx]
    rw [naryLineLt_eq a (I.ltn ht) (I.ltn hx')]
    exact (line_lt r I ht hx' (fun e => nd.2.1.1 (e ▸ hx)) (o.2.1.1 x hx)).1

theorem naryLineLt_self (h : Heap Unit) (i : ℕ) : naryLineLt h i i = false := by
  unfold naryLineLt; simp

theorem narySearch_append {tree : RTree} (S : St ε Pt Y s (l₁ ++ t :: l₂) F p Ex) (a : AllFirst s.heap)
    (ht : tree.inorder = l₁ ++ t :: l₂) : narySearch s.heap tree t = some l₁.length := by
  obtain ⟨h1, h2⟩ := sorted_around S a
  exact search_append (naryLineLt_self _ _) (naryLineLt_self _ _) ht h1 h2

theorem naryAbove_append {tree : RTree} (S : St ε Pt Y s (l₁ ++ t :: l₂) F p Ex) (a : AllFirst s.heap)
    (ht : tree.inorder = l₁ ++ t :: l₂) : naryAbove s.heap tree t = l₂.head? := by
  unfold naryAbove
  rw [narySearch_append S a ht, ht]
  cases l₂ <;> simp

theorem naryBelow_append {tree : RTree} (S : St ε Pt Y s (l₁ ++ t :: l₂) F p Ex) (a : AllFirst s.heap)
    (ht : tree.inorder = l₁ ++ t :: l₂) : naryBelow s.heap tree t = l₁.getLast? := by
  unfold naryBelow
  rw [narySearch_append S a ht, ht]
  rcases List.eq_nil_or_concat l₁ with rfl | ⟨l, x, rfl⟩
  · rfl
  · simp

end line

theorem setData_unit (h : Heap Unit) (i : ℕ) : h.setData i () = h := by
  unfold Heap.setData
  have : Function.update h.lefts i { h.lefts i with data := () } = h.lefts := Function.update_eq_self i h.lefts
  cases h
  simp only at this ⊢
  rw [this]

theorem computeFields_linear (s : Store Unit) (i : ℕ) (b : Option ℕ) : computeFields linearOps s i b = s := by
  unfold computeFields
  have : linearOps.compute s.heap i b = () := rfl
  rw [this, setData_unit]

/-- Different segments of the sweep line are compared as in the other sweep. -/
theorem St.naryDetect {s : Store Unit} {L : List ℕ} {Ex : ℕ → ℕ → Prop} (S : St ε Pt Y s L F p Ex)
    (a : AllFirst s.heap) {u v : ℕ} (hu : u ∈ L) (hv : v ∈ L) (huv : u ≠ v) :
    detectIntersection linearOps.toPayload s u v = .ok (naryDetect s u v, false) ∧
      AllFirst (naryDetect s u v).heap ∧ St ε Pt Y (naryDetect s u v) L F p Ex := by
  obtain ⟨s', b, e, S', ev, -⟩ := S.detect (O := linearOps) hu hv huv
  obtain ⟨A, r, I⟩ := S.inv
  have hn : ¬ (segmentsRelation (s.heap.segment u) (s.heap.segment v)).Linear := by
    intro hl
    have hf : s.heap.first u = s.heap.first v := by rw [a u (I.ltn hu), a v (I.ltn hv)]
    unfold detectIntersection at e
    dsimp only at e
    cases hr : segmentsRelation (s.heap.segment u) (s.heap.segment v) <;> rw [hr] at e hl <;>
      first | exact hl | (simp [hf] at e)
  have e' := naryDetect_eq hn
  refine ⟨e', ?_⟩
  rw [e'] at e
  simp only [Except.ok.injEq, Prod.mk.injEq] at e
  obtain ⟨rfl, -⟩ := e
  refine ⟨?_, S'.congr_ex fun x y h => h.1⟩
  intro i hi
  obtain ⟨k, hk, pk⟩ := ev.sub i hi
  rw [pk.first, a k hk]

theorem checkAbove_linear {s : Store Unit} {L : List ℕ} {Ex : ℕ → ℕ → Prop} (S : St ε Pt Y s L F p Ex)
    (a : AllFirst s.heap) {t : ℕ} (ht : t ∈ L) {above below : Option ℕ}
    (ha : ∀ x, above = some x → x ∈ L ∧ t ≠ x) :
    ∃ s', (∀ x, above = some x → s' = naryDetect s t x) ∧ (above = none → s' = s) ∧
      checkAbove linearOps s t above below = .ok s' ∧ AllFirst s'.heap ∧ St ε Pt Y s' L F p Ex := by
  cases above with
  | none => exact ⟨s, by simp, by simp, rfl, a, S⟩
  | some x =>
    obtain ⟨hx, hne⟩ := ha x rfl
    obtain ⟨e, a', S'⟩ := St.naryDetect S a ht hx hne
    refine ⟨_, fun y hy => by injection hy with hy; rw [hy], by simp, ?_, a', S'⟩
    unfold checkAbove
    dsimp only
    rw [e]

theorem checkBelow_linear {s : Store Unit} {L : List ℕ} {Ex : ℕ → ℕ → Prop} (S : St ε Pt Y s L F p Ex)
    (a : AllFirst s.heap) {t : ℕ} (ht : t ∈ L) {below : Option ℕ} {line : List ℕ}
    (hb : ∀ x, below = some x → x ∈ L ∧ x ≠ t) :
    ∃ s', (∀ x, below = some x → s' = naryDetect s x t) ∧ (below = none → s' = s) ∧
      checkBelow linearOps line s t below = .ok s' ∧ AllFirst s'.heap ∧ St ε Pt Y s' L F p Ex := by
  cases below with
  | none => exact ⟨s, by simp, by simp, rfl, a, S⟩
  | some x =>
    obtain ⟨hx, hne⟩ := hb x rfl
    obtain ⟨e, a', S'⟩ := St.naryDetect S a hx ht hne
    refine ⟨_, fun y hy => by injection hy with hy; rw [hy], by simp, ?_, a', S'⟩
    unfold checkBelow
    dsimp only
    rw [e]

theorem insertIdx_length : ∀ (l₁ l₂ : List ℕ) (x : ℕ), (l₁ ++ l₂).insertIdx l₁.length x = l₁ ++ x :: l₂
  | [], l₂, x => by cases l₂ <;> rfl
  | y :: l₁, l₂, x => by
    rw [List.cons_append, List.length_cons, List.insertIdx_succ_cons, insertIdx_length l₁ l₂ x, List.cons_append]

theorem eraseIdx_length : ∀ (l₁ l₂ : List ℕ) (x : ℕ), (l₁ ++ x :: l₂).eraseIdx l₁.length = l₁ ++ l₂
  | [], l₂, x => rfl
  | y :: l₁, l₂, x => by
    rw [List.cons_append, List.length_cons, List.eraseIdx_cons_succ, eraseIdx_length l₁ l₂ x, List.cons_append]

section step
variable {B : Balancing} {s : Store Unit} {tree : RTree} {res : List Segment} {t : ℕ} {l₁ l₂ : List ℕ}
  {Ex : ℕ → ℕ → Prop}

/-- A left event. -/
theorem naryLeft_sim (S : St ε Pt Y s (l₁ ++ t :: l₂) F p Ex) (a : AllFirst s.heap)
    (ht : tree.inorder = l₁ ++ l₂) (el : lineAdd s.heap (l₁ ++ l₂) t = l₁ ++ t :: l₂)
    (hne : ∀ x ∈ l₁, lineEq s.heap t x = false) :
    processLeft linearOps ⟨s, l₁ ++ l₂⟩ t =
      .ok ⟨(naryLeft B ⟨s, tree, res⟩ t).store, (naryLeft B ⟨s, tree, res⟩ t).tree.inorder⟩ ∧
    (naryLeft B ⟨s, tree, res⟩ t).result = res := by
  obtain ⟨h1, h2⟩ := sorted_around S a
  obtain ⟨g1, g2⟩ := search_place ht h1 h2
  have hi : (B.insert tree (tree.place (naryLineLt s.heap) t) t).inorder = l₁ ++ t :: l₂ := by
    rw [B.inorder_insert _ _ _ place_le, g2, ht]
    exact insertIdx_length l₁ l₂ t
  obtain ⟨A, r, I⟩ := S.inv
  have nd := (List.nodup_append.1 I.nodup).1
  rw [List.nodup_append, List.nodup_cons] at nd
  have hm : t ∈ l₁ ++ t :: l₂ := by simp
  have mh : ∀ x, l₂.head? = some x → x ∈ l₁ ++ t :: l₂ ∧ t ≠ x := by
    intro x hx
    have := List.mem_of_mem_head? hx
    exact ⟨by simp [this], fun e => nd.2.1.1 (e ▸ this)⟩
  have ml : ∀ x, l₁.getLast? = some x → x ∈ l₁ ++ t :: l₂ ∧ x ≠ t := by
    intro x hx
    have := List.mem_of_mem_getLast? hx
    exact ⟨by simp [this], nd.2.2 x this t (by simp)⟩
  unfold processLeft naryLeft
  dsimp only
  have sk : linearOps.skipPresent = false := rfl
  rw [sk, Bool.false_and, if_neg Bool.false_ne_true, el, lineAbove_append hne, lineBelow_append hne,
    computeFields_linear]
  rw [show narySearch s.heap tree t = none from g1]
  dsimp only
  rw [naryAbove_append S a hi, naryBelow_append S a hi, hi]
  obtain ⟨s₁, c1, c2, e1, a1, S1⟩ := checkAbove_linear S a hm (below := l₁.getLast?) mh
  obtain ⟨s₂, d1, d2, e2, a2, S2⟩ := checkBelow_linear S1 a1 hm (line := l₁ ++ t :: l₂) ml
  rw [e1]
  dsimp only
  rw [e2]
  dsimp only
  refine ⟨?_, rfl⟩
  cases hh : l₂.head? with
  | none =>
    obtain rfl := c2 hh
    cases hl : l₁.getLast? with
    | none => rw [d2 hl]
    | some y => rw [d1 y hl]
  | some x =>
    obtain rfl := c1 x hh
    cases hl : l₁.getLast? with
    | none => rw [d2 hl]
    | some y => rw [d1 y hl]

/-- A right event. -/
theorem naryRight_sim (S : St ε Pt Y s (l₁ ++ l₂) F p Ex) (a : AllFirst s.heap)
    (S₀ : ∃ s₀ F₀ p₀ Ex₀, s₀.heap = s.heap ∧ St ε Pt Y s₀ (l₁ ++ t :: l₂) F₀ p₀ Ex₀)
    (ht : tree.inorder = l₁ ++ t :: l₂) (hne : ∀ x ∈ l₁, lineEq s.heap t x = false) :
    processRight linearOps ⟨s, l₁ ++ t :: l₂⟩ t =
      .ok ⟨(naryRight B ⟨s, tree, res⟩ t).store, (naryRight B ⟨s, tree, res⟩ t).tree.inorder⟩ ∧
    (naryRight B ⟨s, tree, res⟩ t).result = (naryRight B ⟨s, tree, res⟩ t).store.heap.segment t :: res := by
  obtain ⟨s₀, F₀, p₀, Ex₀, eh, S₀⟩ := S₀
  have a₀ : AllFirst s₀.heap := by rw [eh]; exact a
  have hs := narySearch_append S₀ a₀ ht
  have hab := naryAbove_append S₀ a₀ ht
  have hbe := naryBelow_append S₀ a₀ ht
  rw [eh] at hs hab hbe
  have hr : (B.remove tree l₁.length).inorder = l₁ ++ l₂ := by
    rw [B.inorder_remove _ _ (by rw [← RTree.length_inorder, ht]; simp), ht]
    exact eraseIdx_length l₁ l₂ t
  obtain ⟨A, r, I⟩ := S.inv
  have nd := (List.nodup_append.1 I.nodup).1
  rw [List.nodup_append] at nd
  unfold processRight naryRight
  dsimp only
  rw [lineContains_append, if_pos rfl, lineAbove_append hne, lineBelow_append hne, lineRemove_append hne, hs]
  dsimp only
  rw [hab, hbe, hr]
  refine ⟨?_, rfl⟩
  cases hl : l₁.getLast? with
  | none => rfl
  | some x =>
    cases hh : l₂.head? with
    | none => rfl
    | some y =>
      have hx := List.mem_of_mem_getLast? hl
      have hy := List.mem_of_mem_head? hh
      dsimp only
      rw [(St.naryDetect S a (by simp [hx]) (by simp [hy]) (nd.2.2 x hx y hy)).1]

end step

/-- The state of the n-ary sweep agrees with that of the other one. -/
structure Sim (ε : ℚ) (Pt : List Point) (Y : ℚ → ℚ) (n : NaryState) (s : SweepState Unit)
    (log : List (Ev × ℕ)) : Prop where
  store : n.store = s.store
  line : n.tree.inorder = s.line
  first : AllFirst s.store.heap
  inv : ∃ F p, St ε Pt Y s.store s.line F p NoEx ∧ LogOk ε s.store s.line F p log ∧
    n.result = (F.map s.store.heap.segment).reverse

/-- One iteration of the loop. -/
theorem Sim.step {B : Balancing} {tb : TieBreak} {n : NaryState} {s s' : SweepState Unit}
    {log : List (Ev × ℕ)} (R : Sim ε Pt Y n s log) {e : Ev} {q : List Ev} (hpop : pop tb s.store = some (e, q))
    (hs' : processEvent linearOps { s with store := { s.store with queue := q } } e = .ok s') :
    Sim ε Pt Y (naryProcess B { n with store := { n.store with queue := q } } e) s'
      ((e, s'.store.heap.primary e) :: log) := by
  obtain ⟨h1, h2, a, F, p, S, lo, hres⟩ := R
  obtain ⟨store, tree, res⟩ := n
  obtain ⟨store', line⟩ := s
  dsimp only at h1 h2 a S lo hres hpop hs' ⊢
  subst h1 h2
  obtain ⟨s'', F', hs'', S', lo', -, -, -, -, -, sub, -⟩ := S.step linearOps (s := ⟨store, tree.inorder⟩) lo hpop
  rw [hs'] at hs''
  injection hs'' with hs''
  subst hs''
  have a' : AllFirst s'.store.heap := by
    intro i hi
    obtain ⟨k, hk, pk⟩ := sub i hi
    rw [pk.first, a k hk]
  obtain ⟨A, r, I⟩ := S.inv
  have pr : ∀ i < store.heap.count, (absSeg ε store.heap i).a < (absSeg ε store.heap i).b := by
    intro i hi; rw [← r i hi]; exact I.proper i hi
  obtain ⟨hem, rfl, hmin⟩ := (pop_spec tb S.ok S.pts pr S.queue.evOk).2 e q hpop
  have bd : ∀ i ∈ F, i < store.heap.count := fun i hi => I.bound i (by simp [hi])
  have dis : ∀ i ∈ F, i ∉ tree.inorder := fun i hF hL => List.disjoint_of_nodup_append I.nodup hL hF
  have f₀ := lo.fin
  have f₁ := lo'.fin
  cases e with
  | left t =>
    obtain ⟨-, l₁, l₂, e1, el, hne, htL, S₁⟩ := S.pushed hem hmin
    obtain ⟨s₂, es₂, -, ev, -, -⟩ := processLeft_spec linearOps S hem hmin
    rw [show processLeft linearOps ⟨{ store with queue := store.queue.erase (.left t) }, tree.inorder⟩ t =
      .ok s' from hs'] at es₂
    injection es₂ with es₂
    subst es₂
    obtain ⟨k1, k2⟩ := naryLeft_sim (B := B) (res := res) (tree := tree) S₁ a e1 (by rw [← e1]; exact el) hne
    rw [← e1] at k1
    rw [show processLeft linearOps ⟨{ store with queue := store.queue.erase (.left t) }, tree.inorder⟩ t =
      .ok s' from hs'] at k1
    injection k1 with k1
    have ht : t ∉ F := ((S.queue.left t).1 hem).2.2
    refine ⟨by rw [k1]; rfl, by rw [k1]; rfl, a', F', _, S', lo', ?_⟩
    show (naryLeft B ⟨{ store with queue := store.queue.erase (.left t) }, tree, res⟩ t).result = _
    have fin : F' = F := f₁.trans f₀.symm
    rw [k2, hres, fin]
    congr 1
    apply List.map_congr_left
    intro i hi
    have hnot : i ∉ t :: tree.inorder := by
      simp only [List.mem_cons, not_or]
      exact ⟨fun e => ht (e ▸ hi), dis i hi⟩
    show (⟨_, _⟩ : Segment) = ⟨_, _⟩
    rw [ev.start i (bd i hi), ev.stop i (bd i hi) hnot]
  | right j =>
    obtain ⟨l₁, l₂, e1, hne, hj, S₁⟩ := S.pulled hem hmin
    obtain ⟨s₂, es₂, S₂, ev, -, -⟩ := processRight_spec linearOps S hem hmin
    rw [show processRight linearOps ⟨{ store with queue := store.queue.erase (.right j) }, tree.inorder⟩
      (store.heap.rights j).left = .ok s' from hs'] at es₂
    injection es₂ with es₂
    subst es₂
    obtain ⟨k1, k2⟩ := naryRight_sim (B := B) (res := res) (tree := tree) S₁ a
      ⟨store, F, p, NoEx, rfl, e1 ▸ S⟩ e1 hne
    rw [← e1] at k1
    rw [show processRight linearOps ⟨{ store with queue := store.queue.erase (.right j) }, tree.inorder⟩
      (store.heap.rights j).left = .ok s' from hs'] at k1
    injection k1 with k1
    refine ⟨by rw [k1]; rfl, by rw [k1]; rfl, a', F', _, S', lo', ?_⟩
    set i₀ := (store.heap.rights j).left with hi₀
    obtain ⟨A₂, r₂, I₂⟩ := S₂.inv
    have dis₂ : ∀ i ∈ F ++ [i₀], i ∉ s'.line := fun i hF hL => List.disjoint_of_nodup_append I₂.nodup hL hF
    have hi : i₀ < store.heap.count := S.ok.llt j hj
    have prim : s'.store.heap.primary (.right j) = i₀ := by
      have e2 : (s'.store.heap.lefts i₀).right = j := by
        rw [ev.right i₀ hi (dis₂ i₀ (by simp)), S.ok.rl j hj]
      have := S'.ok.lr i₀ (hi.trans_le ev.count)
      rw [e2] at this
      exact this
    have fin : F' = F ++ [i₀] := by
      refine f₁.trans ?_
      show ((s'.store.heap.primary (.right j)) :: List.filterMap _ log).reverse = _
      rw [List.reverse_cons, ← f₀, prim]
    show (naryRight B ⟨{ store with queue := store.queue.erase (.right j) }, tree, res⟩ i₀).result = _
    rw [k2, hres, fin, List.map_append, List.reverse_append]
    have es : (naryRight B ⟨{ store with queue := store.queue.erase (.right j) }, tree,
      (F.map store.heap.segment).reverse⟩ i₀).store = s'.store := by rw [k1, hres]
    rw [es]
    show _ :: _ = _ :: _
    congr 2
    apply List.map_congr_left
    intro i hi
    show (⟨_, _⟩ : Segment) = ⟨_, _⟩
    rw [ev.start i (bd i hi), ev.stop i (bd i hi) (dis₂ i (by simp [hi]))]

/-- The whole loop. -/
theorem Sim.loop {B : Balancing} {tb : TieBreak} : ∀ (fuel : ℕ) {n : NaryState} {s s' : SweepState Unit}
    {log log' : List (Ev × ℕ)}, Sim ε Pt Y n s log →
    sweepLoop linearOps tb (fun _ => false) fuel s log = .ok (s', log') →
    ∃ n', naryLoop B tb fuel n = .ok n' ∧ Sim ε Pt Y n' s' log'.reverse := by
  intro fuel
  induction fuel with
  | zero => intro n s s' log log' _ h; simp [sweepLoop] at h
  | succ fuel ih =>
    intro n s s' log log' R h
    obtain ⟨F, p, S, -, -⟩ := R.inv
    have hpop : naryPop tb n.store = pop tb s.store := by
      rw [R.store]; exact naryPop_eq S.ok R.first S.queue.evOk tb
    unfold sweepLoop at h
    unfold naryLoop
    rw [hpop]
    cases hp : pop tb s.store with
    | none =>
      rw [hp] at h
      simp only [Except.ok.injEq, Prod.mk.injEq] at h
      obtain ⟨rfl, rfl⟩ := h
      exact ⟨n, rfl, by rw [List.reverse_reverse]; exact R⟩
    | some x =>
      obtain ⟨e, q⟩ := x
      rw [hp] at h
      dsimp only at h
      rw [if_neg Bool.false_ne_true] at h
      cases hx : processEvent linearOps { s with store := { s.store with queue := q } } e with
      | error err => rw [hx] at h; cases h
      | ok s₁ =>
        rw [hx] at h
        exact ih (R.step hp hx) h

theorem groupRuns_map {β κ : Type} [DecidableEq κ] (f : β → κ) :
    ∀ l : List β, (groupRuns id (l.map f)).map Prod.fst = (groupRuns f l).map Prod.fst
  | [] => rfl
  | x :: l => by
    have ih := groupRuns_map f l
    rw [List.map_cons]
    unfold groupRuns
    cases h1 : groupRuns id (l.map f) with
    | nil =>
      rw [h1] at ih
      have : groupRuns f l = [] := by simpa using ih.symm
      rw [this]; rfl
    | cons y r =>
      obtain ⟨k, g⟩ := y
      rw [h1] at ih
      cases h2 : groupRuns f l with
      | nil => rw [h2] at ih; simp at ih
      | cons y' r' =>
        obtain ⟨k', g'⟩ := y'
        rw [h2] at ih
        simp only [List.map_cons, List.cons.injEq] at ih
        obtain ⟨rfl, ih⟩ := ih
        simp only [id]
        split <;> simp [ih]

theorem operandsOk_first {l : List Segment} (h : NoOverlap l) : OperandsOk (marked l []) :=
  operandsOk_marked h ⟨by simp, List.Pairwise.nil⟩

/-- Without overlaps the n-ary sweep gives what the sweep of two operands does, the second one empty. -/
theorem mergeSegments_eq (B : Balancing) (tb : TieBreak) {l : List Segment} (hl : NoOverlap l) :
    ∃ h F, linearSweep tb none l [] = .ok (h, F) ∧ Final h F (stopAt none) (marked l []) ∧
      mergeSegments B tb l = .ok (selectSegments (fun _ => true) h F) := by
  have ok := operandsOk_first hl
  obtain ⟨s, log, e, -, f, -⟩ := sweep_final linearOps () tb (stopAt none) ok (stopAt_mono none)
  obtain ⟨ε, Y, p, -, S, -, -⟩ := (fresh_init linearOps.toPayload () l []).stX ok []
  have R₀ : Sim ε (points ((marked l []).map Prod.fst)) Y
      ⟨register linearOps.toPayload ⟨Heap.nothing (), []⟩ l true, .nil, []⟩
      ⟨initStore linearOps.toPayload () l [], []⟩ [] := by
    refine ⟨rfl, rfl, ?_, [], p, S, ?_, rfl⟩
    · intro i hi
      have fr := fresh_init linearOps.toPayload () l []
      have hi' := hi
      rw [fr.count] at hi'
      have := (fr.get i _ (List.getElem?_eq_getElem hi')).2.2.2.2
      rw [this]
      simp [marked]
    · constructor <;> simp
  have e' : sweepLoop linearOps tb (fun _ => false) (sweepFuel l.length)
      ⟨initStore linearOps.toPayload () l [], []⟩ [] = .ok (s, log.reverse) := e
  obtain ⟨n, en, R⟩ := Sim.loop (B := B) _ R₀ e'
  obtain ⟨F, p', -, lo, hres⟩ := R.inv
  rw [List.reverse_reverse] at lo
  refine ⟨s.store.heap, F, ?_, ?_, ?_⟩
  · unfold linearSweep
    rw [e, lo.fin]
    simp only [List.filterMap_reverse]
  · rw [lo.fin]; exact f
  · unfold mergeSegments
    dsimp only
    rw [en]
    dsimp only
    rw [hres, List.reverse_reverse, groupRuns_map]
    unfold selectSegments
    simp

end Clipping.Nary

import Verif.Lemmas.Sweep.Queue
import Verif.Model.Sweep

/-!
# Processing an event keeps the invariant
-/

namespace Clipping.Sweep

variable {α : Type} {ε : ℚ} {Pt : List Point} {Y : ℚ → ℚ} {s : Store α} {L F : List ℕ} {p : ℚ}

section line
variable {h : Heap α}

theorem lineLt_self (i : ℕ) : lineLt h i i = false := by unfold lineLt; simp

theorem lineEq_self (i : ℕ) : lineEq h i i = true := by unfold lineEq; simp [lineLt_self]

theorem lineFind_append {l₁ l₂ : List ℕ} {t : ℕ} (hn : ∀ x ∈ l₁, lineEq h t x = false) :
    lineFind h (l₁ ++ t :: l₂) t = some l₁.length := by
  unfold lineFind
  induction l₁ with
  | nil => simp [List.findIdx?_cons, lineEq_self]
  | cons x l ih =>
    have := ih fun y hy => hn y (by simp [hy])
    rw [List.cons_append, List.findIdx?_cons, hn x (by simp)]
    simp [this]

theorem lineAbove_append {l₁ l₂ : List ℕ} {t : ℕ} (hn : ∀ x ∈ l₁, lineEq h t x = false) :
    lineAbove h (l₁ ++ t :: l₂) t = l₂.head? := by
  unfold lineAbove
  rw [lineFind_append hn]
  cases l₂ <;> simp

theorem lineBelow_append {l₁ l₂ : List ℕ} {t : ℕ} (hn : ∀ x ∈ l₁, lineEq h t x = false) :
    lineBelow h (l₁ ++ t :: l₂) t = l₁.getLast? := by
  unfold lineBelow
  rw [lineFind_append hn]
  rcases List.eq_nil_or_concat l₁ with rfl | ⟨l, x, rfl⟩
  · rfl
  · simp

theorem lineRemove_append {l₁ l₂ : List ℕ} {t : ℕ} (hn : ∀ x ∈ l₁, lineEq h t x = false) :
    lineRemove h (l₁ ++ t :: l₂) t = l₁ ++ l₂ := by
  unfold lineRemove
  rw [lineFind_append hn]
  simp [List.eraseIdx_append_of_length_le]

theorem lineContains_append {l₁ l₂ : List ℕ} {t : ℕ} : lineContains h (l₁ ++ t :: l₂) t = true := by
  unfold lineContains
  rw [List.any_eq_true]
  exact ⟨t, by simp, lineEq_self t⟩

end line

/-- The order of the sweep line is what the comparison of the code says. -/
theorem line_lt {A : ℕ → Seg} {Ex : ℕ → ℕ → Prop} (r : Rep ε s.heap A)
    (I : Inv Y A s.heap.count L F p Ex) {u v : ℕ} (hu : u ∈ L) (hv : v ∈ L) (hne : u ≠ v)
    (hlt : Lt (A u) (A v)) : lineLt s.heap u v = true ∧ lineLt s.heap v u = false := by
  have hun := I.ltn hu
  have hvn := I.ltn hv
  have au := I.act u hu
  have av := I.act v hv
  have hff : Col (A u) (A v) → s.heap.first u ≠ s.heap.first v := by
    intro hc
    rcases hlt with ⟨-, h1, h2⟩ | ⟨h, -⟩
    · have e1 : (A u).ff = s.heap.first u := by rw [r u hun]; rfl
      have e2 : (A v).ff = s.heap.first v := by rw [r v hvn]; rfl
      rw [← e1, ← e2, h1, h2]; simp
    · exact absurd hc h
  have pu := I.proper u hun
  have pv := I.proper v hvn
  rw [r u hun] at au pu hff hlt
  rw [r v hvn] at av pv hff hlt
  refine ⟨(lineLt_iff pu pv (av.1.trans au.2) (au.1.trans av.2) hne hff).2 hlt, ?_⟩
  rw [← Bool.not_eq_true, lineLt_iff pv pu (au.1.trans av.2) (av.1.trans au.2) hne.symm
    fun hc => (hff hc.symm).symm]
  rintro (⟨h1, h2, h3⟩ | ⟨h1, h2⟩)
  · rcases hlt with ⟨-, g2, g3⟩ | ⟨g, -⟩
    · rw [g2] at h3; cases h3
    · exact g h1.symm
  · rcases hlt with ⟨g, -⟩ | ⟨-, g⟩
    · exact h1 g.symm
    · rw [max_comm] at h2
      rcases h2 with h2 | ⟨h2, h3⟩ <;> rcases g with g | ⟨g, g'⟩ <;> linarith

theorem line_eq_false {A : ℕ → Seg} {Ex : ℕ → ℕ → Prop} {l₁ l₂ : List ℕ} {t : ℕ} (r : Rep ε s.heap A)
    (I : Inv Y A s.heap.count (l₁ ++ t :: l₂) F p Ex) : ∀ x ∈ l₁, lineEq s.heap t x = false := by
  intro x hx
  have hlt : Lt (A x) (A t) := (List.pairwise_append.1 I.ord).2.2 x hx t (by simp)
  have hne : x ≠ t := by
    rintro rfl
    have := (List.nodup_append.1 I.nodupL).2.2 x hx x (by simp)
    exact this rfl
  have := (line_lt r I (by simp [hx]) (by simp) hne hlt).1
  unfold lineEq
  simp [this]

/-- the queue has only existing events -/
theorem QueueOk.evOk (q : QueueOk s L F) : ∀ e ∈ s.queue, EvOk s.heap e := by
  intro e he
  cases e with
  | left i => exact ((q.left i).1 he).1
  | right j => exact ((q.right j).1 he).1

/-- What is known of the next event. -/
theorem St.next {Ex : ℕ → ℕ → Prop} (S : St ε Pt Y s L F p Ex) {e : Ev} (he : e ∈ s.queue)
    (hmin : ∀ f ∈ s.queue, precedes s.heap f e = false) {A : ℕ → Seg} (r : Rep ε s.heap A)
    (I : Inv Y A s.heap.count L F p Ex) :
    p ≤ evX ε s.heap e ∧ (∀ i < s.heap.count, i ∉ L → i ∉ F → evX ε s.heap e ≤ (A i).a) ∧
    (∀ i ∈ L, evX ε s.heap e ≤ (A i).b) ∧
    (∀ t, e = .left t → t < s.heap.count ∧ t ∉ L ∧ t ∉ F ∧ evX ε s.heap e = (A t).a ∧
      ∀ i ∈ L, (A i).b ≠ evX ε s.heap e) ∧
    (∀ j, e = .right j → j < s.heap.count ∧ (s.heap.rights j).left ∈ L ∧
      evX ε s.heap e = (A (s.heap.rights j).left).b ∧
      ∀ i ∈ L, (A i).b = evX ε s.heap e → (A i).m ≤ (A (s.heap.rights j).left).m) := by
  have dis : ∀ i ∈ L, i ∉ F := fun i hi hF => (List.disjoint_of_nodup_append I.nodup) hi hF
  have evo := S.queue.evOk
  have pr : ∀ i < s.heap.count, (absSeg ε s.heap i).a < (absSeg ε s.heap i).b := fun i hi => by
    rw [← r i hi]; exact I.proper i hi
  have key : ∀ f ∈ s.queue, ¬ _ := fun f hf hh => by
    have := (precedes_iff S.ok S.pts pr (evo e he) (evo f hf)).2 hh
    rw [hmin f hf] at this; cases this
  have xl : ∀ i < s.heap.count, evX ε s.heap (.left i) = (A i).a := fun i hi => by rw [r i hi]; rfl
  have xr : ∀ i < s.heap.count, evX ε s.heap (.right (s.heap.lefts i).right) = (A i).b := fun i hi => by
    rw [r i hi]; rfl
  have qr : ∀ i ∈ L, Ev.right (s.heap.lefts i).right ∈ s.queue := by
    intro i hi
    rw [S.queue.right, S.ok.lr i (I.ltn hi)]
    exact ⟨S.ok.rlt i (I.ltn hi), dis i hi⟩
  have hx : ∀ f ∈ s.queue, evX ε s.heap e ≤ evX ε s.heap f := fun f hf => by
    by_contra hc; push Not at hc
    exact key f hf (Or.inl hc)
  have hw : ∀ i < s.heap.count, i ∉ L → i ∉ F → evX ε s.heap e ≤ (A i).a := by
    intro i hi h1 h2
    rw [← xl i hi]
    exact hx _ ((S.queue.left i).2 ⟨hi, h1, h2⟩)
  have ha : ∀ i ∈ L, evX ε s.heap e ≤ (A i).b := by
    intro i hi
    rw [← xr i (I.ltn hi)]
    exact hx _ (qr i hi)
  refine ⟨?_, hw, ha, ?_, ?_⟩
  · cases e with
    | left t =>
      obtain ⟨h1, h2, h3⟩ := (S.queue.left t).1 he
      rw [xl t h1]; exact I.wait t h1 h2 h3
    | right j =>
      obtain ⟨h1, h2⟩ := (S.queue.right j).1 he
      have hi := S.ok.llt j h1
      have := xr _ hi
      rw [S.ok.rl j h1] at this
      rw [this]
      by_cases hL : (s.heap.rights j).left ∈ L
      · exact (I.act _ hL).2
      · exact (I.wait _ hi hL h2).trans (I.proper _ hi).le
  · rintro t rfl
    obtain ⟨h1, h2, h3⟩ := (S.queue.left t).1 he
    refine ⟨h1, h2, h3, xl t h1, ?_⟩
    intro i hi hc
    rw [← xr i (I.ltn hi)] at hc
    exact key _ (qr i hi) (Or.inr ⟨hc, Or.inl (by simp [evSide])⟩)
  · rintro j rfl
    obtain ⟨h1, h2⟩ := (S.queue.right j).1 he
    have hi := S.ok.llt j h1
    have hxj := xr _ hi
    rw [S.ok.rl j h1] at hxj
    have hL : (s.heap.rights j).left ∈ L := by
      by_contra hL
      have := hw _ hi hL h2
      have := I.proper _ hi
      rw [hxj] at *
      linarith
    refine ⟨h1, hL, hxj, ?_⟩
    intro i hi' hb
    by_contra hc; push Not at hc
    rw [← xr i (I.ltn hi')] at hb
    refine key _ (qr i hi') (Or.inr ⟨hb, Or.inr ⟨rfl, Or.inl ?_⟩⟩)
    simp only [evSlope, S.ok.lr i (I.ltn hi')]
    rw [← r i (I.ltn hi'), ← r _ hi]
    linarith

theorem Inv.advance' {A : ℕ → Seg} {n : ℕ} (I : Inv Y A n L F p NoEx) {p' : ℚ} (hp : p ≤ p')
    (hw : ∀ i < n, i ∉ L → i ∉ F → p' ≤ (A i).a) (hb : ∀ i ∈ L, p' ≤ (A i).b) :
    Inv Y A n L F p' NoEx := by
  rcases hp.lt_or_eq with h | h
  · exact I.advance h hw hb
  · rw [← h]; exact I

theorem Inv.congr_ex {A : ℕ → Seg} {n : ℕ} {Ex Ex' : ℕ → ℕ → Prop} (I : Inv Y A n L F p Ex)
    (h : ∀ u v, Ex u v → Ex' u v) : Inv Y A n L F p Ex' :=
  I.weaken fun u v h1 h2 => absurd (h u v h1) h2

theorem St.congr_ex {Ex Ex' : ℕ → ℕ → Prop} (S : St ε Pt Y s L F p Ex)
    (h : ∀ u v, Ex u v → Ex' u v) : St ε Pt Y s L F p Ex' := by
  obtain ⟨A, r, I⟩ := S.inv
  exact ⟨S.ok, S.pts, S.queue, A, r, I.congr_ex h⟩

theorem computeFields_keeps {O : Ops α} {s : Store α} {i : ℕ} {b : Option ℕ} {g : α → Bool} (k : KeepsAll O g)
    (j : ℕ) : g ((computeFields O s i b).heap.lefts j).data = g (s.heap.lefts j).data := by
  unfold computeFields Heap.setData
  by_cases e : j = i
  · subst e; simp [k.compute]
  · simp [e]

theorem computeFields_geo (O : Ops α) (s : Store α) (i : ℕ) (b : Option ℕ) :
    SameGeo s.heap (computeFields O s i b).heap ∧ (computeFields O s i b).queue = s.queue :=
  ⟨SameGeo.setData _ _ _, rfl⟩

/-- The sweep line with the new segment. -/
theorem lineAdd_spec {A : ℕ → Seg} (r : Rep ε s.heap A) (I : Inv Y A s.heap.count L F p NoEx)
    (hne : ∀ i ∈ L, (A i).b ≠ p) {t : ℕ} (ht : t < s.heap.count) (htL : t ∉ L) (hta : (A t).a = p) :
    lineContains s.heap L t = false ∧ ∃ l₁ l₂, L = l₁ ++ l₂ ∧ lineAdd s.heap L t = l₁ ++ t :: l₂ ∧
      (∀ x ∈ l₁, Lt (A x) (A t)) ∧ (∀ x ∈ l₂, Lt (A t) (A x)) := by
  have hlt : ∀ x ∈ L, (lineLt s.heap t x = true ↔ Lt (A t) (A x)) ∧
      (lineLt s.heap x t = true ↔ Lt (A x) (A t)) := by
    intro x hx
    have hxn := I.ltn hx
    have ax := I.act x hx
    have px := I.proper x hxn
    have pt := I.proper t ht
    have hff : Col (A x) (A t) → s.heap.first x ≠ s.heap.first t := by
      intro hc
      have := I.ff_ne hne ht htL hta hx hc
      rwa [r x hxn, r t ht] at this
    have hxt : x ≠ t := fun e => htL (e ▸ hx)
    have b1 : (A t).a ≤ (A x).b := by rw [hta]; exact ax.2
    have b2 : (A x).a ≤ (A t).b := by linarith [ax.1]
    rw [r x hxn, r t ht] at *
    exact ⟨lineLt_iff pt px b2 b1 hxt.symm fun hc => (hff hc.symm).symm,
      lineLt_iff px pt b1 b2 hxt hff⟩
  have hcon : lineContains s.heap L t = false := by
    rw [← Bool.not_eq_true]
    unfold lineContains
    rw [List.any_eq_true]
    rintro ⟨x, hx, he⟩
    unfold lineEq at he
    simp only [Bool.and_eq_true, Bool.not_eq_true'] at he
    rcases I.lt_total hne ht htL hta hx with h | h
    · rw [(hlt x hx).1.2 h] at he; exact absurd he.1 (by simp)
    · rw [(hlt x hx).2.2 h] at he; exact absurd he.2 (by simp)
  refine ⟨hcon, L.takeWhile (fun x => !lineLt s.heap t x), L.dropWhile (fun x => !lineLt s.heap t x),
    (List.takeWhile_append_dropWhile).symm, ?_, ?_, ?_⟩
  · unfold lineAdd; rw [hcon]; rfl
  · intro x hx
    have hxL : x ∈ L := (List.takeWhile_sublist _).subset hx
    have := List.all_eq_true.1 (List.all_takeWhile (p := fun x => !lineLt s.heap t x) (l := L)) x hx
    simp only [Bool.not_eq_true', ← Bool.not_eq_true, (hlt x hxL).1] at this
    exact (I.lt_total hne ht htL hta hxL).resolve_left this
  · intro x hx
    have hmono := I.lt_mono hne ht htL hta
    cases hd : L.dropWhile (fun x => !lineLt s.heap t x) with
    | nil => rw [hd] at hx; cases hx
    | cons y l =>
      have hsub : (y :: l).Sublist L := hd ▸ List.dropWhile_sublist _
      have hyL : y ∈ L := hsub.subset (by simp)
      have hy : Lt (A t) (A y) := by
        rw [← (hlt y hyL).1]
        have h0 : L.dropWhile (fun x => !lineLt s.heap t x) ≠ [] := by rw [hd]; simp
        have := List.head_dropWhile_not (fun x => !lineLt s.heap t x) h0
        simp only [hd, List.head_cons] at this
        simpa using this
      rw [hd] at hx
      rcases List.mem_cons.1 hx with rfl | hx
      · exact hy
      · exact (List.pairwise_cons.1 (hmono.sublist hsub)).1 x hx hy

/-- Checking the new segment with the one above it. -/
theorem checkAbove_spec (O : Ops α) {Ex : ℕ → ℕ → Prop} (S : St ε Pt Y s L F p Ex) {t : ℕ} (ht : t ∈ L)
    {above below : Option ℕ} (ha : ∀ a, above = some a → a ∈ L ∧ t ≠ a) :
    ∃ s', checkAbove O s t above below = .ok s' ∧
      St ε Pt Y s' L F p (fun x y => Ex x y ∧ ¬ (x = t ∧ above = some y)) ∧ Evolves O ε Pt L s s' := by
  cases above with
  | none =>
    exact ⟨s, rfl, S.congr_ex fun u v h => ⟨h, fun hh => by cases hh.2⟩, Evolves.refl _ _⟩
  | some a =>
    obtain ⟨haL, hta⟩ := ha a rfl
    obtain ⟨s', b, e, S', ev, -⟩ := S.detect (O := O) ht haL hta
    unfold checkAbove
    dsimp only
    rw [e]
    have S'' := S'.congr_ex (Ex' := fun x y => Ex x y ∧ ¬ (x = t ∧ some a = some y)) fun u v h =>
      ⟨h.1, fun hh => h.2 ⟨hh.1, (Option.some.inj hh.2).symm⟩⟩
    cases b with
    | false => exact ⟨s', rfl, S'', ev⟩
    | true =>
      refine ⟨_, rfl, ?_⟩
      obtain ⟨g1, q1⟩ := computeFields_geo O s' t below
      obtain ⟨g2, q2⟩ := computeFields_geo O (computeFields O s' t below) a (some t)
      exact ⟨g2.st q2 (g1.st q1 S''), (ev.trans (g1.evolves q1 L fun _ k i => computeFields_keeps k i)).trans
        (g2.evolves q2 L fun _ k i => computeFields_keeps k i)⟩

/-- Checking the new segment with the one below it. -/
theorem checkBelow_spec (O : Ops α) {Ex : ℕ → ℕ → Prop} (S : St ε Pt Y s L F p Ex) {t : ℕ} (ht : t ∈ L)
    {below : Option ℕ} (hb : ∀ a, below = some a → a ∈ L ∧ a ≠ t) (line : List ℕ) :
    ∃ s', checkBelow O line s t below = .ok s' ∧
      St ε Pt Y s' L F p (fun x y => Ex x y ∧ ¬ (below = some x ∧ y = t)) ∧ Evolves O ε Pt L s s' := by
  cases below with
  | none =>
    exact ⟨s, rfl, S.congr_ex fun u v h => ⟨h, fun hh => by cases hh.1⟩, Evolves.refl _ _⟩
  | some a =>
    obtain ⟨haL, hta⟩ := hb a rfl
    obtain ⟨s', b, e, S', ev, -⟩ := S.detect (O := O) haL ht hta
    unfold checkBelow
    dsimp only
    rw [e]
    have S'' := S'.congr_ex (Ex' := fun x y => Ex x y ∧ ¬ (some a = some x ∧ y = t)) fun u v h =>
      ⟨h.1, fun hh => h.2 ⟨(Option.some.inj hh.1).symm, hh.2⟩⟩
    cases b with
    | false => exact ⟨s', rfl, S'', ev⟩
    | true =>
      refine ⟨_, rfl, ?_⟩
      obtain ⟨g1, q1⟩ := computeFields_geo O s' a (lineBelow s'.heap line a)
      obtain ⟨g2, q2⟩ := computeFields_geo O (computeFields O s' a (lineBelow s'.heap line a)) t (some a)
      exact ⟨g2.st q2 (g1.st q1 S''), (ev.trans (g1.evolves q1 L fun _ k i => computeFields_keeps k i)).trans
        (g2.evolves q2 L fun _ k i => computeFields_keeps k i)⟩

/-- The state right after a left event has been taken from the queue and put into the sweep line. -/
theorem St.pushed (S : St ε Pt Y s L F p NoEx) {t : ℕ} (he : Ev.left t ∈ s.queue)
    (hmin : ∀ f ∈ s.queue, precedes s.heap f (.left t) = false) :
    lineContains s.heap L t = false ∧ ∃ l₁ l₂, L = l₁ ++ l₂ ∧ lineAdd s.heap L t = l₁ ++ t :: l₂ ∧
      (∀ x ∈ l₁, lineEq s.heap t x = false) ∧ t ∉ L ∧
      St ε Pt Y { s with queue := s.queue.erase (.left t) } (l₁ ++ t :: l₂) F (evX ε s.heap (.left t))
        (fun u v => (l₁.getLast? = some u ∧ v = t) ∨ (u = t ∧ l₂.head? = some v)) := by
  obtain ⟨A, r, I⟩ := S.inv
  obtain ⟨n1, n2, n3, n4, -⟩ := S.next he hmin r I
  obtain ⟨t1, t2, t3, t4, t5⟩ := n4 t rfl
  have I' := I.advance' n1 n2 n3
  obtain ⟨hcon, l₁, l₂, hL, hadd, h1, h2⟩ := lineAdd_spec r I' t5 t1 t2 t4.symm
  subst hL
  have I'' := I'.insert t5 t1 t2 t3 t4.symm h1 h2
  refine ⟨hcon, l₁, l₂, rfl, hadd, line_eq_false r I'', t2, S.ok, S.pts, ⟨?_, ?_, ?_⟩, A, r, I''⟩
  · exact S.queue.nodup.erase _
  · intro i
    rw [S.queue.nodup.mem_erase_iff, S.queue.left]
    simp only [ne_eq, Ev.left.injEq, List.mem_append, List.mem_cons]
    tauto
  · intro j
    rw [S.queue.nodup.mem_erase_iff, S.queue.right]
    simp

/-- A left event. -/
theorem processLeft_spec (O : Ops α) (S : St ε Pt Y s L F p NoEx) {t : ℕ} (he : Ev.left t ∈ s.queue)
    (hmin : ∀ f ∈ s.queue, precedes s.heap f (.left t) = false) :
    ∃ s', processLeft O ⟨{ s with queue := s.queue.erase (.left t) }, L⟩ t = .ok s' ∧
      St ε Pt Y s'.store s'.line F (evX ε s.heap (.left t)) NoEx ∧
      Evolves O ε Pt (t :: L) s s'.store ∧ s'.line.Perm (t :: L) ∧
      potential ε Pt s'.store + 1 ≤ potential ε Pt s := by
  obtain ⟨hcon, l₁, l₂, hL, hadd, heq, htL, S1⟩ := S.pushed he hmin
  set s0 : Store α := { s with queue := s.queue.erase (.left t) } with hs0
  have hh : s0.heap = s.heap := rfl
  obtain ⟨g1, q1⟩ := computeFields_geo O s0 t l₁.getLast?
  set s1 := computeFields O s0 t l₁.getLast? with hs1
  have S2 := g1.st q1 S1
  have htm : t ∈ l₁ ++ t :: l₂ := by simp
  have nd : (l₁ ++ t :: l₂).Nodup := by obtain ⟨A, r, I⟩ := S1.inv; exact I.nodupL
  have ndt : ∀ x ∈ l₁ ++ l₂, x ≠ t := by
    rintro x hx rfl
    exact htL (hL ▸ hx)
  obtain ⟨s2, e2, S3, ev2⟩ := checkAbove_spec O S2 htm (above := l₂.head?) (below := l₁.getLast?) (by
    intro a ha
    have : a ∈ l₂ := List.mem_of_mem_head? ha
    exact ⟨by simp [this], (ndt a (by simp [this])).symm⟩)
  obtain ⟨s3, e3, S4, ev3⟩ := checkBelow_spec O S3 htm (below := l₁.getLast?) (by
    intro a ha
    have : a ∈ l₁ := List.mem_of_getLast? ha
    exact ⟨by simp [this], ndt a (by simp [this])⟩) (l₁ ++ t :: l₂)
  have pm : (l₁ ++ t :: l₂).Perm (t :: L) := by rw [hL]; exact List.perm_middle
  have pot : potential ε Pt s0 + 1 = potential ε Pt s := by
    unfold potential
    have : s0.queue.length + 1 = s.queue.length := by
      have := List.length_pos_of_mem he
      simp only [hs0, List.length_erase_of_mem he]; omega
    have t0 : total ε Pt s0.heap = total ε Pt s.heap := rfl
    omega
  have ev0 : Evolves O ε Pt (l₁ ++ t :: l₂) s0 s3 := ((g1.evolves q1 _ fun _ k i => computeFields_keeps k i).trans ev2).trans ev3
  refine ⟨⟨s3, l₁ ++ t :: l₂⟩, ?_, S4.congr_ex ?_, ?_, pm, ?_⟩
  · unfold processLeft
    dsimp only
    rw [hh, hcon, Bool.and_false, if_neg (by simp), hadd, lineAbove_append heq, lineBelow_append heq,
      ← hs1, e2]
    dsimp only
    rw [e3]
  · rintro u v ⟨⟨h, h1⟩, h2⟩
    rcases h with ⟨a, rfl⟩ | ⟨rfl, a⟩
    · exact h2 ⟨a, rfl⟩
    · exact h1 ⟨rfl, a⟩
  · have mm : ∀ i, i ∉ t :: L → i ∉ l₁ ++ t :: l₂ := fun i hi hm => hi (pm.mem_iff.1 hm)
    exact ⟨ev0.count, ev0.start, ev0.first, fun i hi hm => ev0.stop i hi (mm i hm),
      fun i hi hm => ev0.right i hi (mm i hm), ev0.rstart, ev0.pts, by have := ev0.potential; simp only; omega, ev0.sub, ev0.cov,
      ev0.par, ev0.deg, ev0.own⟩
  · have := ev0.potential; simp only; omega

/-- The state right after a right event has been taken from the queue. -/
theorem St.pulled (S : St ε Pt Y s L F p NoEx) {j : ℕ} (he : Ev.right j ∈ s.queue)
    (hmin : ∀ f ∈ s.queue, precedes s.heap f (.right j) = false) :
    ∃ l₁ l₂, L = l₁ ++ (s.heap.rights j).left :: l₂ ∧
      (∀ x ∈ l₁, lineEq s.heap (s.heap.rights j).left x = false) ∧ j < s.heap.count ∧
      St ε Pt Y { s with queue := s.queue.erase (.right j) } (l₁ ++ l₂) (F ++ [(s.heap.rights j).left])
        (evX ε s.heap (.right j)) (fun u v => l₁.getLast? = some u ∧ l₂.head? = some v) := by
  obtain ⟨A, r, I⟩ := S.inv
  obtain ⟨n1, n2, n3, -, n5⟩ := S.next he hmin r I
  obtain ⟨j1, j2, j3, j4⟩ := n5 j rfl
  have I' := I.advance' n1 n2 n3
  obtain ⟨l₁, l₂, hL⟩ := List.append_of_mem j2
  subst hL
  have I'' := I'.remove j3.symm j4
  refine ⟨l₁, l₂, rfl, line_eq_false r I', j1, S.ok, S.pts, ⟨?_, ?_, ?_⟩, A, r, I''⟩
  · exact S.queue.nodup.erase _
  · intro i
    rw [S.queue.nodup.mem_erase_iff, S.queue.left]
    simp only [ne_eq, reduceCtorEq, not_false_eq_true, List.mem_append, List.mem_cons,
      List.not_mem_nil, or_false]
    tauto
  · intro k
    rw [S.queue.nodup.mem_erase_iff, S.queue.right]
    simp only [ne_eq, Ev.right.injEq, List.mem_append, List.mem_cons, List.not_mem_nil, or_false]
    constructor
    · rintro ⟨a, b, c⟩
      refine ⟨b, ?_⟩
      rintro (h | h)
      · exact c h
      · apply a
        rw [← S.ok.rl k b, h, S.ok.rl j j1]
    · rintro ⟨a, b⟩
      refine ⟨?_, a, fun h => b (Or.inl h)⟩
      rintro rfl
      exact b (Or.inr rfl)

/-- A right event. -/
theorem processRight_spec (O : Ops α) (S : St ε Pt Y s L F p NoEx) {j : ℕ} (he : Ev.right j ∈ s.queue)
    (hmin : ∀ f ∈ s.queue, precedes s.heap f (.right j) = false) :
    ∃ s', processRight O ⟨{ s with queue := s.queue.erase (.right j) }, L⟩ (s.heap.rights j).left = .ok s' ∧
      St ε Pt Y s'.store s'.line (F ++ [(s.heap.rights j).left]) (evX ε s.heap (.right j)) NoEx ∧
      Evolves O ε Pt s'.line s s'.store ∧ L.Perm ((s.heap.rights j).left :: s'.line) ∧
      potential ε Pt s'.store + 1 ≤ potential ε Pt s := by
  obtain ⟨l₁, l₂, hL, heq, hj, S1⟩ := S.pulled he hmin
  set i := (s.heap.rights j).left with hi
  set s0 : Store α := { s with queue := s.queue.erase (.right j) } with hs0
  have hh : s0.heap = s.heap := rfl
  have pm : L.Perm (i :: (l₁ ++ l₂)) := by rw [hL]; exact List.perm_middle
  have pot : potential ε Pt s0 + 1 = potential ε Pt s := by
    unfold potential
    have : s0.queue.length + 1 = s.queue.length := by
      have := List.length_pos_of_mem he
      simp only [hs0, List.length_erase_of_mem he]; omega
    have t0 : total ε Pt s0.heap = total ε Pt s.heap := rfl
    omega
  have nd : (l₁ ++ l₂).Nodup := by obtain ⟨A, r, I⟩ := S1.inv; exact I.nodupL
  have ev00 : Evolves O ε Pt (l₁ ++ l₂) s s0 :=
    ⟨le_refl _, fun _ _ => rfl, fun _ _ => rfl, fun _ _ _ => rfl, fun _ _ _ => rfl,
      fun _ _ => rfl, fun _ => rfl, by omega, fun i hi => ⟨i, hi, .refl⟩,
      fun i hi q hq => ⟨i, hi, .refl, hq⟩, fun _ _ _ => rfl, fun _ _ => rfl, fun _ _ => .refl⟩
  have red : processRight O ⟨s0, L⟩ i = (match l₁.getLast?, l₂.head? with
      | some b, some a =>
        match detectIntersection O.toPayload s0 b a with
        | .error e => .error e
        | .ok (s', _) => .ok ⟨s', l₁ ++ l₂⟩
      | _, _ => .ok ⟨s0, l₁ ++ l₂⟩) := by
    unfold processRight
    dsimp only
    rw [hh, hL, lineContains_append, if_pos rfl, lineAbove_append heq, lineBelow_append heq,
      lineRemove_append heq]
    cases l₁.getLast? <;> cases l₂.head? <;> rfl
  rw [red]
  rcases hb : l₁.getLast? with _ | b
  · exact ⟨⟨s0, l₁ ++ l₂⟩, rfl, S1.congr_ex (by rintro u v ⟨h, -⟩; rw [hb] at h; cases h), ev00, pm,
      by simp only; omega⟩
  rcases ha : l₂.head? with _ | a
  · exact ⟨⟨s0, l₁ ++ l₂⟩, rfl, S1.congr_ex (by rintro u v ⟨-, h⟩; rw [ha] at h; cases h), ev00, pm,
      by simp only; omega⟩
  have hbm : b ∈ l₁ := List.mem_of_getLast? hb
  have ham : a ∈ l₂ := List.mem_of_mem_head? ha
  obtain ⟨s', f, e, S2, ev, -⟩ := S1.detect (O := O) (u := b) (v := a) (by simp [hbm])
    (by simp [ham]) ((List.nodup_append.1 nd).2.2 b hbm a ham)
  refine ⟨⟨s', l₁ ++ l₂⟩, ?_, S2.congr_ex ?_, ev00.trans ev, pm, ?_⟩
  · dsimp only; rw [e]
  · rintro u v ⟨⟨h1, h2⟩, h3⟩
    rw [hb] at h1
    rw [ha] at h2
    exact h3 ⟨(Option.some.inj h1).symm, (Option.some.inj h2).symm⟩
  · have := ev.potential; simp only; omega

end Clipping.Sweep

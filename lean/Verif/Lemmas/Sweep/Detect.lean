import Verif.Lemmas.Sweep.Heap
import Verif.Lemmas.RelationUnique

/-!
# `detect_intersection` resolves the intersections of two neighbours
-/

namespace Clipping.Sweep

variable {α : Type} {ε : ℚ}

/-- the same events up to the payload -/
structure SameGeo (h h' : Heap α) : Prop where
  count : h'.count = h.count
  start : ∀ i, h'.start i = h.start i
  first : ∀ i, h'.first i = h.first i
  right : ∀ i, (h'.lefts i).right = (h.lefts i).right
  rights : h'.rights = h.rights

theorem SameGeo.refl (h : Heap α) : SameGeo h h := ⟨rfl, fun _ => rfl, fun _ => rfl, fun _ => rfl, rfl⟩

theorem SameGeo.trans {h h' h'' : Heap α} (a : SameGeo h h') (b : SameGeo h' h'') : SameGeo h h'' :=
  ⟨b.count.trans a.count, fun i => (b.start i).trans (a.start i), fun i => (b.first i).trans (a.first i),
    fun i => (b.right i).trans (a.right i), b.rights.trans a.rights⟩

theorem SameGeo.setData (h : Heap α) (i : ℕ) (d : α) : SameGeo h (h.setData i d) := by
  constructor
  · rfl
  · intro j; unfold Heap.setData Heap.start; by_cases e : j = i <;> simp [e]
  · intro j; unfold Heap.setData Heap.first; by_cases e : j = i <;> simp [e]
  · intro j; unfold Heap.setData; by_cases e : j = i <;> simp [e]
  · rfl

section
variable {h h' : Heap α} (g : SameGeo h h')
include g

theorem SameGeo.stop (i : ℕ) : h'.stop i = h.stop i := by
  unfold Heap.stop; rw [g.rights, g.right]

theorem SameGeo.absSeg (i : ℕ) : absSeg ε h' i = Sweep.absSeg ε h i := by
  unfold Sweep.absSeg; rw [g.start, g.stop, g.first]

theorem SameGeo.segment (i : ℕ) : h'.segment i = h.segment i := by
  unfold Heap.segment; rw [g.start, g.stop]

theorem SameGeo.ok (ok : HeapOk h) : HeapOk h' := by
  refine ⟨fun i => ?_, fun i => ?_, fun i => ?_, fun i => ?_⟩
  · rw [g.count, g.right]; exact ok.rlt i
  · rw [g.count, g.rights]; exact ok.llt i
  · rw [g.count, g.rights, g.right]; exact ok.lr i
  · rw [g.count, g.rights, g.right]; exact ok.rl i

theorem SameGeo.opposite (e : Ev) : h'.opposite e = h.opposite e := by
  cases e <;> simp only [Heap.opposite, g.right, g.rights]

theorem SameGeo.primary (e : Ev) : h'.primary e = h.primary e := by
  cases e <;> simp only [Heap.primary, g.rights]

theorem SameGeo.evStart (e : Ev) : h'.evStart e = h.evStart e := by
  cases e with
  | left i => exact g.start i
  | right j => simp only [Heap.evStart, g.rights]

theorem SameGeo.rep {A : ℕ → Seg} (r : Rep ε h A) : Rep ε h' A := by
  intro i hi
  rw [g.absSeg]
  exact r i (g.count ▸ hi)

theorem SameGeo.lineLt (u v : ℕ) : Clipping.lineLt h' u v = Clipping.lineLt h u v := by
  unfold Clipping.lineLt
  simp only [g.start, g.stop, g.first]

end

/-- The field `g` of the payload is never changed by the queue. -/
structure Keeps (P : Payload α) (g : α → Bool) : Prop where
  tail : ∀ d, g (P.tail d) = g d
  left : ∀ b x y, g (P.overlap b x y).1 = g x.data
  right : ∀ b x y, g (P.overlap b x y).2 = g y.data

/-- The store changes by dividing `u` and `v` at points with `G`, and in the payload. -/
inductive Divs (P : Payload α) (ε : ℚ) (u v : ℕ) (G : Point → Prop) (s : Store α) : Store α → Prop
  | refl : Divs P ε u v G s s
  | data {s₁ s₂ : Store α} : Divs P ε u v G s s₁ → SameGeo s₁.heap s₂.heap → s₂.queue = s₁.queue →
      (∀ g, Keeps P g → ∀ i, g (s₂.heap.lefts i).data = g (s₁.heap.lefts i).data) → Divs P ε u v G s s₂
  | step {s₁ : Store α} {i : ℕ} {q : Point} : Divs P ε u v G s s₁ → (i = u ∨ i = v) →
      (absSeg ε s₁.heap i).a < sx ε q → sx ε q < (absSeg ε s₁.heap i).b →
      (absSeg ε s₁.heap i).y (sx ε q) = q.y → G q → Divs P ε u v G s (divideSegment P s₁ i q)

theorem Divs.trans {P : Payload α} {u v : ℕ} {G : Point → Prop} {s s₁ s₂ : Store α}
    (h : Divs P ε u v G s s₁) (h' : Divs P ε u v G s₁ s₂) : Divs P ε u v G s s₂ := by
  induction h' with
  | refl => exact h
  | data _ a b c ih => exact ih.data a b c
  | step _ a b c d e ih => exact ih.step a b c d e

theorem Divs.mono {P : Payload α} {u v u' v' : ℕ} {G G' : Point → Prop} {s s₁ : Store α}
    (h : Divs P ε u v G s s₁) (hu : ∀ i, (i = u ∨ i = v) → (i = u' ∨ i = v')) (hG : ∀ q, G q → G' q) :
    Divs P ε u' v' G' s s₁ := by
  induction h with
  | refl => exact .refl
  | data _ a b c ih => exact ih.data a b c
  | step _ a b c d e ih => exact ih.step (hu _ a) b c d (hG _ e)

theorem abs_divide_self {h : Heap α} {tail : α → α} {i : ℕ} {q : Point} (hi : i < h.count)
    (h1 : (absSeg ε h i).a < sx ε q) (hq : (absSeg ε h i).y (sx ε q) = q.y) :
    absSeg ε (h.divide tail i q) i = { absSeg ε h i with b := sx ε q } := by
  unfold absSeg
  rw [divide_start_old hi hi, divide_stop_self, divide_first_old hi hi]
  exact seg_cut_left h1 hq

theorem abs_divide_new {h : Heap α} {tail : α → α} {i : ℕ} {q : Point} (ok : HeapOk h) (hi : i < h.count)
    (h1 : (absSeg ε h i).a < sx ε q) (h2 : sx ε q < (absSeg ε h i).b)
    (hq : (absSeg ε h i).y (sx ε q) = q.y) :
    absSeg ε (h.divide tail i q) h.count = { absSeg ε h i with a := sx ε q } := by
  unfold absSeg
  rw [divide_start_new hi, divide_stop_new ok hi, divide_first_new hi]
  exact seg_cut_right (h1.trans h2) h2 hq

theorem abs_divide_other {h : Heap α} {tail : α → α} {i j : ℕ} {q : Point} (ok : HeapOk h)
    (hi : i < h.count) (hj : j < h.count) (hne : j ≠ i) :
    absSeg ε (h.divide tail i q) j = absSeg ε h j := by
  unfold absSeg
  rw [divide_start_old hi hj, divide_stop_old ok hj hne, divide_first_old hi hj]

theorem queueLt_of_ne {h : Heap α} {e f : Ev} (hne : h.evStart e ≠ h.evStart f) :
    queueLt h e f = decide (h.evStart e < h.evStart f) := by
  unfold queueLt
  dsimp only
  by_cases hx : (h.evStart e).x = (h.evStart f).x
  · have hy : (h.evStart e).y ≠ (h.evStart f).y := fun hy => hne (Point.ext' hx hy)
    rw [if_neg (by simpa using hx), if_pos hy]
    simp [Point.lt_def, hx]
  · rw [if_pos hx]
    simp [Point.lt_def, hx]

theorem abs_a {h : Heap α} (i : ℕ) : (absSeg ε h i).a = sx ε (h.start i) := rfl
theorem abs_b {h : Heap α} (i : ℕ) : (absSeg ε h i).b = sx ε (h.stop i) := rfl
theorem abs_ya {h : Heap α} (i : ℕ) : (absSeg ε h i).y (sx ε (h.start i)) = (h.start i).y := seg_y_start
theorem abs_yb {h : Heap α} {i : ℕ} (hi : (absSeg ε h i).a < (absSeg ε h i).b) :
    (absSeg ε h i).y (sx ε (h.stop i)) = (h.stop i).y := seg_y_stop hi

/-- Dividing overlapping segments. -/
theorem divideOverlapping_divs {P : Payload α} {s : Store α} {u v : ℕ} (ok : HeapOk s.heap)
    (hu : u < s.heap.count) (hv : v < s.heap.count) (huv : u ≠ v)
    (pu : (absSeg ε s.heap u).a < (absSeg ε s.heap u).b)
    (pv : (absSeg ε s.heap v).a < (absSeg ε s.heap v).b) {Pt : List Point} (ord : Orders ε Pt)
    (mu : s.heap.start u ∈ Pt ∧ s.heap.stop u ∈ Pt) (mv : s.heap.start v ∈ Pt ∧ s.heap.stop v ∈ Pt)
    (hc : Col (absSeg ε s.heap u) (absSeg ε s.heap v))
    (h1 : (absSeg ε s.heap u).a < (absSeg ε s.heap v).b)
    (h2 : (absSeg ε s.heap v).a < (absSeg ε s.heap u).b) :
    Divs P ε u v (fun q => CutAt (absSeg ε s.heap u) (absSeg ε s.heap v) (sx ε q) ∧
        (absSeg ε s.heap u).y (sx ε q) = q.y ∧ q ∈ Pt) s (divideOverlapping P s u v) ∧
    Resolved (absSeg ε (divideOverlapping P s u v).heap u)
      (absSeg ε (divideOverlapping P s u v).heap v) := by
  set G : Point → Prop := fun q => CutAt (absSeg ε s.heap u) (absSeg ε s.heap v) (sx ε q) ∧
    (absSeg ε s.heap u).y (sx ε q) = q.y ∧ q ∈ Pt with hG
  have hsv : (absSeg ε s.heap u).y (sx ε (s.heap.start v)) = (s.heap.start v).y := by
    rw [hc.y]; exact abs_ya v
  have hev : (absSeg ε s.heap u).y (sx ε (s.heap.stop v)) = (s.heap.stop v).y := by
    rw [hc.y]; exact abs_yb pv
  have hsu : (absSeg ε s.heap v).y (sx ε (s.heap.start u)) = (s.heap.start u).y := by
    rw [← hc.y]; exact abs_ya u
  have heu : (absSeg ε s.heap v).y (sx ε (s.heap.stop u)) = (s.heap.stop u).y := by
    rw [← hc.y]; exact abs_yb pu
  simp only [abs_a, abs_b] at pu pv h1 h2
  -- points where we cut
  have Gsv : sx ε (s.heap.start u) ≤ sx ε (s.heap.start v) → G (s.heap.start v) := fun hh =>
    ⟨⟨⟨hh, h2.le, le_refl _, pv.le, hc.y _⟩, Or.inr (Or.inr (Or.inl rfl))⟩, hsv, mv.1⟩
  have Gsu : sx ε (s.heap.start v) ≤ sx ε (s.heap.start u) → G (s.heap.start u) := fun hh =>
    ⟨⟨⟨le_refl _, pu.le, hh, h1.le, hc.y _⟩, Or.inr (Or.inl (Or.inl rfl))⟩, abs_ya u, mu.1⟩
  have Gev : sx ε (s.heap.stop v) ≤ sx ε (s.heap.stop u) → G (s.heap.stop v) := fun hh =>
    ⟨⟨⟨h1.le, hh, pv.le, le_refl _, hc.y _⟩, Or.inr (Or.inr (Or.inr rfl))⟩, hev, mv.2⟩
  have Geu : sx ε (s.heap.stop u) ≤ sx ε (s.heap.stop v) → G (s.heap.stop u) := fun hh =>
    ⟨⟨⟨pu.le, le_refl _, h2.le, hh, hc.y _⟩, Or.inr (Or.inl (Or.inr rfl))⟩, abs_yb pu, mu.2⟩
  have os := ord.eq_iff mu.1 mv.1
  have oe := ord.eq_iff mv.2 mu.2
  have ls := ord.lt_iff mv.1 mu.1
  have le := ord.lt_iff mv.2 mu.2
  have pr : ∀ i < s.heap.count, s.heap.primary (s.heap.opposite (.left i)) = i := fun i hi => ok.lr i hi
  have es : ∀ i, s.heap.evStart (s.heap.opposite (.left i)) = s.heap.stop i := fun i => rfl
  have ps := pr u hu
  have pt := pr v hv
  -- one cut
  have one : ∀ {i : ℕ} {q : Point}, (i = u ∨ i = v) → sx ε (s.heap.start i) < sx ε q →
      sx ε q < sx ε (s.heap.stop i) → (absSeg ε s.heap i).y (sx ε q) = q.y → G q →
      Divs P ε u v G s (divideSegment P s i q) := fun hi a b c d => Divs.refl.step hi a b c d
  have res : ∀ {s₂ : Store α}, (Col (absSeg ε s₂.heap u) (absSeg ε s₂.heap v) ∧
      sx ε (s₂.heap.start u) = sx ε (s₂.heap.start v) ∧
      sx ε (s₂.heap.stop u) = sx ε (s₂.heap.stop v)) →
      Resolved (absSeg ε s₂.heap u) (absSeg ε s₂.heap v) := fun hh c _ => Or.inr hh
  have res1 : ∀ {s₂ : Store α}, sx ε (s₂.heap.stop u) = sx ε (s₂.heap.start v) →
      Resolved (absSeg ε s₂.heap u) (absSeg ε s₂.heap v) := by
    intro s₂ hh c hcom
    have c1 := hcom.2.1
    have c2 := hcom.2.2.1
    rw [abs_b, hh] at c1
    rw [abs_a] at c2
    have : c = sx ε (s₂.heap.start v) := le_antisymm c1 c2
    exact Or.inl ⟨Or.inr (this.trans hh.symm), Or.inl this⟩
  have res2 : ∀ {s₂ : Store α}, sx ε (s₂.heap.stop v) = sx ε (s₂.heap.start u) →
      Resolved (absSeg ε s₂.heap u) (absSeg ε s₂.heap v) := by
    intro s₂ hh c hcom
    have c1 := hcom.1
    have c2 := hcom.2.2.2.1
    rw [abs_b, hh] at c2
    rw [abs_a] at c1
    have : c = sx ε (s₂.heap.start u) := le_antisymm c2 c1
    exact Or.inl ⟨Or.inl this, Or.inr (this.trans hh.symm)⟩
  have okd : ∀ {i : ℕ} {q : Point}, i < s.heap.count → HeapOk (divideSegment P s i q).heap :=
    fun hi => ok.divide hi
  unfold divideOverlapping
  dsimp only
  by_cases hs : s.heap.start u = s.heap.start v
  · rw [if_pos (by simpa using hs)]
    by_cases he : s.heap.stop v = s.heap.stop u
    · rw [if_neg (by simpa using he)]
      exact ⟨.refl, res ⟨hc, congrArg _ hs, congrArg _ he.symm⟩⟩
    · rw [if_pos (by simpa using he), queueLt_of_ne (by rw [es, es]; exact he)]
      rcases lt_or_gt_of_ne he with hlt | hlt
      · simp only [es, hlt, decide_true, if_true, ps]
        have hlt' := le.1 hlt
        refine ⟨one (Or.inl rfl) h1 hlt' hev (Gev hlt'.le), res ?_⟩
        simp only [divideSegment]
        rw [abs_divide_self hu h1 hev, abs_divide_other ok hu hv huv.symm, divide_start_old hu hu,
          divide_start_old hu hv, divide_stop_self, divide_stop_old ok hv huv.symm]
        exact ⟨hc, congrArg _ hs, rfl⟩
      · simp only [es, not_lt_of_gt hlt, decide_false, pt, Bool.false_eq_true, if_false]
        have hlt' := (ord.lt_iff mu.2 mv.2).1 hlt
        refine ⟨one (Or.inr rfl) h2 hlt' heu (Geu hlt'.le), res ?_⟩
        simp only [divideSegment]
        rw [abs_divide_self hv h2 heu, abs_divide_other ok hv hu huv, divide_start_old hv hu,
          divide_start_old hv hv, divide_stop_self, divide_stop_old ok hu huv]
        exact ⟨hc, congrArg _ hs, rfl⟩
  · rw [if_neg (by simpa using hs)]
    have hs' : s.heap.start v ≠ s.heap.start u := fun h => hs h.symm
    rw [queueLt_of_ne (h := s.heap) (e := .left v) (f := .left u) hs']
    have est : ∀ i, s.heap.evStart (.left i) = s.heap.start i := fun i => rfl
    simp only [est]
    by_cases he : s.heap.stop v = s.heap.stop u
    · rw [if_pos (by simpa using he)]
      rcases lt_or_gt_of_ne hs' with hlt | hlt
      · simp only [hlt, decide_true, if_true]
        have hlt' := ls.1 hlt
        refine ⟨one (Or.inr rfl) hlt' h1 hsu (Gsu hlt'.le), res2 ?_⟩
        simp only [divideSegment]
        rw [divide_stop_self, divide_start_old hv hu]
      · simp only [not_lt_of_gt hlt, decide_false, Bool.false_eq_true, if_false]
        have hlt' := (ord.lt_iff mu.1 mv.1).1 hlt
        refine ⟨one (Or.inl rfl) hlt' h2 hsv (Gsv hlt'.le), res1 ?_⟩
        simp only [divideSegment]
        rw [divide_stop_self, divide_start_old hu hv]
    · rw [if_neg (by simpa using he), queueLt_of_ne (by rw [es, es]; exact he)]
      simp only [es]
      rcases lt_or_gt_of_ne hs' with hlt | hlt <;> rcases lt_or_gt_of_ne he with hle | hle
      · -- v starts first and ends first
        have hlt' := ls.1 hlt
        have hle' := le.1 hle
        simp only [hlt, hle, decide_true, if_true, ps, huv.symm, if_false, es]
        have d1 := one (Or.inl rfl) h1 hle' hev (Gev hle'.le)
        have e1 : (divideSegment P s u (s.heap.stop v)).heap.start u = s.heap.start u :=
          divide_start_old hu hu
        rw [e1]
        refine ⟨d1.step (Or.inr rfl) ?_ ?_ ?_ (Gsu hlt'.le), res2 ?_⟩
        · simp only [divideSegment]; rw [abs_divide_other ok hu hv huv.symm]; exact hlt'
        · simp only [divideSegment]; rw [abs_divide_other ok hu hv huv.symm]; exact h1
        · simp only [divideSegment]; rw [abs_divide_other ok hu hv huv.symm]; exact hsu
        · simp only [divideSegment]
          rw [divide_stop_self, divide_start_old, divide_start_old hu hu]
          · rw [divide_count]; omega
          · rw [divide_count]; omega
      · -- v includes u
        have hlt' := ls.1 hlt
        have hle' := (ord.lt_iff mu.2 mv.2).1 hle
        simp only [hlt, not_lt_of_gt hle, decide_true, decide_false, Bool.false_eq_true, if_false,
          if_true, pt, es]
        have d1 := one (Or.inr rfl) h2 hle' heu (Geu hle'.le)
        have e1 : (divideSegment P s v (s.heap.stop u)).heap.start u = s.heap.start u :=
          divide_start_old hv hu
        rw [e1]
        refine ⟨d1.step (Or.inr rfl) ?_ ?_ ?_ (Gsu hlt'.le), res2 ?_⟩
        · simp only [divideSegment]; rw [abs_divide_self hv h2 heu]; exact hlt'
        · simp only [divideSegment]; rw [abs_divide_self hv h2 heu]; exact pu
        · simp only [divideSegment]; rw [abs_divide_self hv h2 heu]; exact hsu
        · simp only [divideSegment]
          rw [divide_stop_self, divide_start_old, divide_start_old hv hu]
          · rw [divide_count]; omega
          · rw [divide_count]; omega
      · -- u includes v
        have hlt' := (ord.lt_iff mu.1 mv.1).1 hlt
        have hle' := le.1 hle
        simp only [not_lt_of_gt hlt, hle, decide_true, decide_false, Bool.false_eq_true, if_false,
          if_true, ps, es]
        have d1 := one (Or.inl rfl) h1 hle' hev (Gev hle'.le)
        have e1 : (divideSegment P s u (s.heap.stop v)).heap.start v = s.heap.start v :=
          divide_start_old hu hv
        rw [e1]
        refine ⟨d1.step (Or.inl rfl) ?_ ?_ ?_ (Gsv hlt'.le), res1 ?_⟩
        · simp only [divideSegment]; rw [abs_divide_self hu h1 hev]; exact hlt'
        · simp only [divideSegment]; rw [abs_divide_self hu h1 hev]; exact pv
        · simp only [divideSegment]; rw [abs_divide_self hu h1 hev]; exact hsv
        · simp only [divideSegment]
          rw [divide_stop_self, divide_start_old, divide_start_old hu hv]
          · rw [divide_count]; omega
          · rw [divide_count]; omega
      · -- u starts first and ends first
        have hlt' := (ord.lt_iff mu.1 mv.1).1 hlt
        have hle' := (ord.lt_iff mu.2 mv.2).1 hle
        simp only [not_lt_of_gt hlt, not_lt_of_gt hle, decide_false, Bool.false_eq_true, if_false,
          pt, huv, es]
        have d1 := one (Or.inr rfl) h2 hle' heu (Geu hle'.le)
        have e1 : (divideSegment P s v (s.heap.stop u)).heap.start v = s.heap.start v :=
          divide_start_old hv hv
        rw [e1]
        refine ⟨d1.step (Or.inl rfl) ?_ ?_ ?_ (Gsv hlt'.le), res1 ?_⟩
        · simp only [divideSegment]; rw [abs_divide_other ok hv hu huv]; exact hlt'
        · simp only [divideSegment]; rw [abs_divide_other ok hv hu huv]; exact h2
        · simp only [divideSegment]; rw [abs_divide_other ok hv hu huv]; exact hsv
        · simp only [divideSegment]
          rw [divide_stop_self, divide_start_old, divide_start_old hv hv]
          · rw [divide_count]; omega
          · rw [divide_count]; omega

theorem segment_lo {h : Heap α} {i : ℕ} (hlt : h.start i < h.stop i) : (h.segment i).lo = h.start i :=
  min_eq_left hlt.le
theorem segment_hi {h : Heap α} {i : ℕ} (hlt : h.start i < h.stop i) : (h.segment i).hi = h.stop i :=
  max_eq_right hlt.le

theorem mem_segment {h : Heap α} {i : ℕ} (hi : (absSeg ε h i).a < (absSeg ε h i).b) {q : Point} :
    q ∈ (h.segment i).pts ↔ (absSeg ε h i).a ≤ sx ε q ∧ sx ε q ≤ (absSeg ε h i).b ∧
      (absSeg ε h i).y (sx ε q) = q.y := mem_seg hi

theorem sameLine_iff {h : Heap α} {u v : ℕ} (pu : (absSeg ε h u).a < (absSeg ε h u).b)
    (pv : (absSeg ε h v).a < (absSeg ε h v).b) (lu : h.start u < h.stop u) (lv : h.start v < h.stop v) :
    SameLine (h.segment u) (h.segment v) ↔ Col (absSeg ε h u) (absSeg ε h v) := by
  unfold SameLine
  rw [segment_lo lu, segment_hi lu, segment_lo lv, segment_hi lv]
  constructor
  · exact fun g => ((col_seg pv pu).2 g).symm
  · exact fun g => (col_seg pv pu).1 g.symm

theorem setData₂_keeps {P : Payload α} {h : Heap α} {g : α → Bool} (k : Keeps P g) {b : Bool} {u v : ℕ}
    (huv : u ≠ v) (i : ℕ) :
    g ((((h.setData u (P.overlap b (h.lefts u) (h.lefts v)).1).setData v
      (P.overlap b (h.lefts u) (h.lefts v)).2).lefts i).data) = g (h.lefts i).data := by
  unfold Heap.setData
  by_cases e : i = v
  · subst e; simp [k.right]
  · by_cases e' : i = u
    · subst e'; simp [e, k.left]
    · simp [e, e']

/-- `detect_intersection` succeeds on neighbours, divides them at common points only, and afterwards
they have no common points other than end points of both, or are equal. -/
theorem detect_divs {P : Payload α} {s : Store α} {u v : ℕ} (ok : HeapOk s.heap)
    (hu : u < s.heap.count) (hv : v < s.heap.count) (huv : u ≠ v)
    (pu : (absSeg ε s.heap u).a < (absSeg ε s.heap u).b)
    (pv : (absSeg ε s.heap v).a < (absSeg ε s.heap v).b) {Pt : List Point} (ord : Orders ε Pt)
    (mu : s.heap.start u ∈ Pt ∧ s.heap.stop u ∈ Pt) (mv : s.heap.start v ∈ Pt ∧ s.heap.stop v ∈ Pt)
    (hcr : ¬ Col (absSeg ε s.heap u) (absSeg ε s.heap v) → ∀ q, q ∈ (s.heap.segment u).pts →
      q ∈ (s.heap.segment v).pts → q ∈ Pt)
    (hff : Col (absSeg ε s.heap u) (absSeg ε s.heap v) → (absSeg ε s.heap u).a < (absSeg ε s.heap v).b →
      (absSeg ε s.heap v).a < (absSeg ε s.heap u).b → s.heap.first u ≠ s.heap.first v) :
    ∃ s' b, detectIntersection P s u v = .ok (s', b) ∧
      Divs P ε u v (fun q => CutAt (absSeg ε s.heap u) (absSeg ε s.heap v) (sx ε q) ∧
        (absSeg ε s.heap u).y (sx ε q) = q.y ∧ q ∈ Pt) s s' ∧
      Resolved (absSeg ε s'.heap u) (absSeg ε s'.heap v) ∧
      (b = true ↔ Col (absSeg ε s.heap u) (absSeg ε s.heap v) ∧ s.heap.start u = s.heap.start v) := by
  have lu : s.heap.start u < s.heap.stop u := (ord.lt_iff mu.1 mu.2).2 pu
  have lv : s.heap.start v < s.heap.stop v := (ord.lt_iff mv.1 mv.2).2 pv
  have pru : (s.heap.segment u).Proper := lu.ne
  have prv : (s.heap.segment v).Proper := lv.ne
  have hm := relation_spec pru prv
  have com : ∀ {c}, Com (absSeg ε s.heap u) (absSeg ε s.heap v) c →
      ∃ q, q ∈ (s.heap.segment u).pts ∧ q ∈ (s.heap.segment v).pts ∧ sx ε q = c := fun hc =>
    (com_seg pu pv).1 hc
  have moc : ∀ {q}, q ∈ (s.heap.segment u).pts → q ∈ (s.heap.segment v).pts →
      Com (absSeg ε s.heap u) (absSeg ε s.heap v) (sx ε q) := fun h1 h2 =>
    (com_seg pu pv).2 ⟨_, h1, h2, rfl⟩
  have starts : Col (absSeg ε s.heap u) (absSeg ε s.heap v) → s.heap.start u = s.heap.start v →
      ∃ p q, p ≠ q ∧ p ∈ (s.heap.segment u).pts ∧ q ∈ (s.heap.segment u).pts ∧
        p ∈ (s.heap.segment v).pts ∧ q ∈ (s.heap.segment v).pts := by
    intro hc hst
    have hl := (sameLine_iff pu pv lu lv).2 hc
    refine two_common prv hl ?_
    rw [segment_lo lu, segment_hi lu, segment_lo lv, segment_hi lv, hst, max_self]
    exact lt_min (hst ▸ lu) lv
  -- the case of a single common point
  have single : ∀ {p : Point}, segmentsRelation (s.heap.segment u) (s.heap.segment v) = .touch ∨
      segmentsRelation (s.heap.segment u) (s.heap.segment v) = .cross →
      p ∈ (s.heap.segment u).pts → p ∈ (s.heap.segment v).pts →
      (∀ q, q ∈ (s.heap.segment u).pts → q ∈ (s.heap.segment v).pts → q = p) →
      (¬ Col (absSeg ε s.heap u) (absSeg ε s.heap v) ∨ (s.heap.segment u).IsEnd p ∨
        (s.heap.segment v).IsEnd p) →
      ∃ s' b, (if s.heap.start v ≠ s.heap.start u ∧ s.heap.stop v ≠ s.heap.stop u then
          let point := segmentsIntersection (s.heap.segment u) (s.heap.segment v)
          let s₁ := if point ≠ s.heap.start u ∧ point ≠ s.heap.stop u then divideSegment P s u point else s
          let s₂ := if point ≠ s₁.heap.start v ∧ point ≠ s₁.heap.stop v
            then divideSegment P s₁ v point else s₁
          (.ok (s₂, false) : Except Err (Store α × Bool))
        else .ok (s, false)) = .ok (s', b) ∧
      Divs P ε u v (fun q => CutAt (absSeg ε s.heap u) (absSeg ε s.heap v) (sx ε q) ∧
        (absSeg ε s.heap u).y (sx ε q) = q.y ∧ q ∈ Pt) s s' ∧
      Resolved (absSeg ε s'.heap u) (absSeg ε s'.heap v) ∧
      (b = true ↔ Col (absSeg ε s.heap u) (absSeg ε s.heap v) ∧ s.heap.start u = s.heap.start v) := by
    intro p hr p1 p2 p3 p4
    have nb : (false = true ↔ Col (absSeg ε s.heap u) (absSeg ε s.heap v) ∧
        s.heap.start u = s.heap.start v) := by
      refine ⟨fun h => absurd h Bool.false_ne_true, ?_⟩
      rintro ⟨hc, hst⟩
      obtain ⟨x, y, hxy, x1, y1, x2, y2⟩ := starts hc hst
      exact absurd ((p3 x x1 x2).trans (p3 y y1 y2).symm) hxy
    by_cases hs : s.heap.start v ≠ s.heap.start u ∧ s.heap.stop v ≠ s.heap.stop u
    · rw [if_pos hs]
      have hpt : segmentsIntersection (s.heap.segment u) (s.heap.segment v) = p := by
        obtain ⟨i1, i2, -⟩ := intersection_spec pru prv hr
        exact p3 _ i1 i2
      rw [hpt]
      dsimp only
      have pP : p ∈ Pt := by
        rcases p4 with h | h | h
        · exact hcr h p p1 p2
        · rcases h with rfl | rfl; exacts [mu.1, mu.2]
        · rcases h with rfl | rfl; exacts [mv.1, mv.2]
      have yu := ((mem_segment pu).1 p1).2.2
      have yv := ((mem_segment pv).1 p2).2.2
      have hG : CutAt (absSeg ε s.heap u) (absSeg ε s.heap v) (sx ε p) ∧
          (absSeg ε s.heap u).y (sx ε p) = p.y ∧ p ∈ Pt := by
        refine ⟨⟨moc p1 p2, ?_⟩, yu, pP⟩
        rcases p4 with h | h | h
        · exact Or.inl h
        · rcases h with rfl | rfl
          · exact Or.inr (Or.inl (Or.inl rfl))
          · exact Or.inr (Or.inl (Or.inr rfl))
        · rcases h with rfl | rfl
          · exact Or.inr (Or.inr (Or.inl rfl))
          · exact Or.inr (Or.inr (Or.inr rfl))
      -- strictly inside if not an end point
      have ins : ∀ {i}, (absSeg ε s.heap i).a < (absSeg ε s.heap i).b → p ∈ (s.heap.segment i).pts →
          s.heap.start i ∈ Pt → s.heap.stop i ∈ Pt → p ≠ s.heap.start i → p ≠ s.heap.stop i →
          (absSeg ε s.heap i).a < sx ε p ∧ sx ε p < (absSeg ε s.heap i).b := by
        intro i pi hp a1 a2 n1 n2
        obtain ⟨b1, b2, -⟩ := (mem_segment pi).1 hp
        exact ⟨lt_of_le_of_ne b1 fun e => n1 ((ord.eq_iff pP a1).2 e.symm),
          lt_of_le_of_ne b2 fun e => n2 ((ord.eq_iff pP a2).2 e)⟩
      refine ⟨_, _, rfl, ?_, ?_, nb⟩
      · -- the divisions
        by_cases c1 : p ≠ s.heap.start u ∧ p ≠ s.heap.stop u
        · obtain ⟨i1, i2⟩ := ins pu p1 mu.1 mu.2 c1.1 c1.2
          rw [if_pos c1]
          have d1 : Divs P ε u v (fun q => CutAt (absSeg ε s.heap u) (absSeg ε s.heap v) (sx ε q) ∧
              (absSeg ε s.heap u).y (sx ε q) = q.y ∧ q ∈ Pt) s (divideSegment P s u p) :=
            Divs.refl.step (Or.inl rfl) i1 i2 yu hG
          by_cases c2 : p ≠ (divideSegment P s u p).heap.start v ∧ p ≠ (divideSegment P s u p).heap.stop v
          · rw [if_pos c2]
            have e1 : (divideSegment P s u p).heap.start v = s.heap.start v := divide_start_old hu hv
            have e2 : (divideSegment P s u p).heap.stop v = s.heap.stop v :=
              divide_stop_old ok hv huv.symm
            rw [e1, e2] at c2
            obtain ⟨j1, j2⟩ := ins pv p2 mv.1 mv.2 c2.1 c2.2
            have e3 : absSeg ε (divideSegment P s u p).heap v = absSeg ε s.heap v :=
              abs_divide_other ok hu hv huv.symm
            exact d1.step (Or.inr rfl) (by rw [e3]; exact j1) (by rw [e3]; exact j2)
              (by rw [e3]; exact yv) hG
          · rw [if_neg c2]; exact d1
        · rw [if_neg c1]
          by_cases c2 : p ≠ s.heap.start v ∧ p ≠ s.heap.stop v
          · rw [if_pos c2]
            obtain ⟨j1, j2⟩ := ins pv p2 mv.1 mv.2 c2.1 c2.2
            exact Divs.refl.step (Or.inr rfl) j1 j2 yv hG
          · rw [if_neg c2]; exact .refl
      · -- resolved
        set s₁ := if p ≠ s.heap.start u ∧ p ≠ s.heap.stop u then divideSegment P s u p else s with hs1
        have k1 : (absSeg ε s₁.heap u).a = (absSeg ε s.heap u).a ∧
            (absSeg ε s₁.heap u).m = (absSeg ε s.heap u).m ∧
            (absSeg ε s₁.heap u).k = (absSeg ε s.heap u).k ∧
            (absSeg ε s₁.heap u).b ≤ (absSeg ε s.heap u).b ∧
            IsEnd (absSeg ε s₁.heap u) (sx ε p) ∧ absSeg ε s₁.heap v = absSeg ε s.heap v ∧
            s₁.heap.start v = s.heap.start v ∧ s₁.heap.stop v = s.heap.stop v ∧
            v < s₁.heap.count ∧ u < s₁.heap.count ∧ HeapOk s₁.heap := by
          rw [hs1]
          by_cases c1 : p ≠ s.heap.start u ∧ p ≠ s.heap.stop u
          · obtain ⟨i1, i2⟩ := ins pu p1 mu.1 mu.2 c1.1 c1.2
            rw [if_pos c1]
            have e : absSeg ε (divideSegment P s u p).heap u = { absSeg ε s.heap u with b := sx ε p } :=
              abs_divide_self hu i1 yu
            rw [e]
            refine ⟨rfl, rfl, rfl, i2.le, Or.inr rfl, abs_divide_other ok hu hv huv.symm,
              divide_start_old hu hv, divide_stop_old ok hv huv.symm, Nat.lt_succ_of_lt hv,
              Nat.lt_succ_of_lt hu, ok.divide hu⟩
          · rw [if_neg c1]
            refine ⟨rfl, rfl, rfl, le_refl _, ?_, rfl, rfl, rfl, hv, hu, ok⟩
            by_cases e : p = s.heap.start u
            · subst e; exact Or.inl rfl
            · have : p = s.heap.stop u := by
                by_contra h; exact c1 ⟨e, h⟩
              subst this; exact Or.inr rfl
        obtain ⟨a1, a2, a3, a4, a5, a6, a7, a8, a9, a10, a11⟩ := k1
        rw [a7, a8]
        set s₂ := if p ≠ s.heap.start v ∧ p ≠ s.heap.stop v then divideSegment P s₁ v p else s₁ with hs2
        have k2 : absSeg ε s₂.heap u = absSeg ε s₁.heap u ∧
            (absSeg ε s₂.heap v).a = (absSeg ε s.heap v).a ∧
            (absSeg ε s₂.heap v).m = (absSeg ε s.heap v).m ∧
            (absSeg ε s₂.heap v).k = (absSeg ε s.heap v).k ∧
            (absSeg ε s₂.heap v).b ≤ (absSeg ε s.heap v).b ∧
            IsEnd (absSeg ε s₂.heap v) (sx ε p) := by
          rw [hs2]
          by_cases c2 : p ≠ s.heap.start v ∧ p ≠ s.heap.stop v
          · obtain ⟨j1, j2⟩ := ins pv p2 mv.1 mv.2 c2.1 c2.2
            rw [if_pos c2]
            have e : absSeg ε (divideSegment P s₁ v p).heap v = { absSeg ε s₁.heap v with b := sx ε p } :=
              abs_divide_self a9 (by rw [a6]; exact j1) (by rw [a6]; exact yv)
            rw [e, a6]
            exact ⟨abs_divide_other a11 a9 a10 huv, rfl, rfl, rfl, j2.le, Or.inr rfl⟩
          · rw [if_neg c2, a6]
            refine ⟨rfl, rfl, rfl, rfl, le_refl _, ?_⟩
            by_cases e : p = s.heap.start v
            · subst e; exact Or.inl rfl
            · have : p = s.heap.stop v := by
                by_contra h; exact c2 ⟨e, h⟩
              subst this; exact Or.inr rfl
        obtain ⟨b1, b2, b3, b4, b5, b6⟩ := k2
        rw [b1]
        intro c hc
        have hc' := com_sub hc a1.ge a4 b2.ge b5 a2 a3 b3 b4
        obtain ⟨q, q1, q2, rfl⟩ := com hc'
        rw [p3 q q1 q2]
        exact Or.inl ⟨a5, b6⟩
    · rw [if_neg hs]
      refine ⟨s, false, rfl, .refl, ?_, nb⟩
      intro c hc
      obtain ⟨q, q1, q2, rfl⟩ := com hc
      rw [p3 q q1 q2]
      have : s.heap.start v = s.heap.start u ∨ s.heap.stop v = s.heap.stop u := by
        by_contra h; push Not at h; exact hs h
      rcases this with h | h
      · have e : s.heap.start u = p := p3 _ (Segment.start_mem _) (by rw [← h]; exact Segment.start_mem _)
        refine Or.inl ⟨Or.inl (by rw [← e]; rfl), Or.inl ?_⟩
        rw [← e, ← h]; rfl
      · have e : s.heap.stop u = p := p3 _ (Segment.stop_mem _) (by rw [← h]; exact Segment.stop_mem _)
        refine Or.inl ⟨Or.inr (by rw [← e]; rfl), Or.inr ?_⟩
        rw [← e, ← h]; rfl
  -- the case of overlapping segments
  have linear : (segmentsRelation (s.heap.segment u) (s.heap.segment v)).Linear →
      ∃ s' b, (if s.heap.first u = s.heap.first v then (.error .sameOperandOverlap : Except Err (Store α × Bool))
        else
          let startsEqual := decide (s.heap.start u = s.heap.start v)
          let d := P.overlap startsEqual (s.heap.lefts u) (s.heap.lefts v)
          let s' := { s with heap := (s.heap.setData u d.1).setData v d.2 }
          .ok (divideOverlapping P s' u v, startsEqual)) = .ok (s', b) ∧
      Divs P ε u v (fun q => CutAt (absSeg ε s.heap u) (absSeg ε s.heap v) (sx ε q) ∧
        (absSeg ε s.heap u).y (sx ε q) = q.y ∧ q ∈ Pt) s s' ∧
      Resolved (absSeg ε s'.heap u) (absSeg ε s'.heap v) ∧
      (b = true ↔ Col (absSeg ε s.heap u) (absSeg ε s.heap v) ∧ s.heap.start u = s.heap.start v) := by
    intro hl
    obtain ⟨sl, hmm⟩ := linear_facts pru prv hm hl
    rw [segment_lo lu, segment_hi lu, segment_lo lv, segment_hi lv, max_lt_iff, lt_min_iff,
      lt_min_iff] at hmm
    have hc := (sameLine_iff pu pv lu lv).1 sl
    have h1 : (absSeg ε s.heap u).a < (absSeg ε s.heap v).b := (ord.lt_iff mu.1 mv.2).1 hmm.1.2
    have h2 : (absSeg ε s.heap v).a < (absSeg ε s.heap u).b := (ord.lt_iff mv.1 mu.2).1 hmm.2.1
    rw [if_neg (hff hc h1 h2)]
    refine ⟨_, _, rfl, ?_⟩
    set d := P.overlap (decide (s.heap.start u = s.heap.start v)) (s.heap.lefts u) (s.heap.lefts v)
    set s₁ : Store α := { s with heap := (s.heap.setData u d.1).setData v d.2 } with hs1
    have g : SameGeo s.heap s₁.heap := (SameGeo.setData _ _ _).trans (SameGeo.setData _ _ _)
    have := divideOverlapping_divs (P := P) (s := s₁) (u := u) (v := v) (ε := ε) (Pt := Pt) (g.ok ok)
      (by rw [g.count]; exact hu) (by rw [g.count]; exact hv) huv
      (by rw [g.absSeg]; exact pu) (by rw [g.absSeg]; exact pv) ord
      (by rw [g.start, g.stop]; exact mu) (by rw [g.start, g.stop]; exact mv)
      (by rw [g.absSeg, g.absSeg]; exact hc)
      (by rw [g.absSeg, g.absSeg]; exact h1) (by rw [g.absSeg, g.absSeg]; exact h2)
    rw [g.absSeg, g.absSeg] at this
    refine ⟨(Divs.refl.data g rfl fun f k i => setData₂_keeps k huv i).trans this.1, this.2, ?_⟩
    rw [decide_eq_true_eq]
    exact ⟨fun h => ⟨hc, h⟩, fun h => h.2⟩
  unfold detectIntersection
  dsimp only
  cases hr : segmentsRelation (s.heap.segment u) (s.heap.segment v) <;> rw [hr] at hm <;> dsimp only
  · refine ⟨s, false, rfl, .refl, ?_, ?_⟩
    · intro c hc
      obtain ⟨q, q1, q2, -⟩ := com hc
      exact absurd q2 (hm q q1)
    · refine ⟨fun h => absurd h Bool.false_ne_true, ?_⟩
      rintro ⟨hc, hst⟩
      obtain ⟨x, y, hxy, x1, y1, x2, y2⟩ := starts hc hst
      exact absurd x2 (hm x x1)
  · obtain ⟨p, p1, p2, p3, p4⟩ := hm
    exact single (Or.inl hr) p1 p2 p3 (Or.inr p4)
  · obtain ⟨⟨p, p1, p2, p3, p4⟩, p5⟩ := hm
    exact single (Or.inr hr) p1 p2 p3 (Or.inl fun h => p5 ((sameLine_iff pu pv lu lv).2 h))
  · exact linear (by rw [hr]; trivial)
  · exact linear (by rw [hr]; trivial)
  · exact linear (by rw [hr]; trivial)
  · exact linear (by rw [hr]; trivial)

end Clipping.Sweep

import Verif.Lemmas.LinearResult

/-!
# The complete intersection: common segments and common points
-/

namespace Clipping

open Sweep

section common
variable {h : Heap Unit}

/-- Sorted by end points -/
def EvSorted (h : Heap Unit) (l : List Ev) : Prop :=
  l.Pairwise fun e f => endpointsLe (evEndpoints h e) (evEndpoints h f)

theorem common_cons (e f : Ev) (rest : List Ev) : commonSegments h (e :: f :: rest) =
    if h.evFirst e ≠ h.evFirst f ∧ evEndpoints h e = evEndpoints h f then
      (true, if Heap.isLeft e then evEndpoints h e :: (commonSegments h (f :: rest)).2
        else (commonSegments h (f :: rest)).2)
    else commonSegments h (f :: rest) := by
  conv_lhs => unfold commonSegments
  have : (h.evFirst e ≠ h.evFirst f ∧ h.evStart e = h.evStart f ∧ h.evStop e = h.evStop f) ↔
      (h.evFirst e ≠ h.evFirst f ∧ evEndpoints h e = evEndpoints h f) := by
    unfold evEndpoints
    rw [Segment.mk.injEq]
  simp only [this]

theorem evSorted_mid {e f g : Ev} {l : List Ev} (hs : EvSorted h (e :: f :: l)) (hg : g ∈ f :: l)
    (hk : evEndpoints h g = evEndpoints h e) : evEndpoints h f = evEndpoints h e := by
  rcases List.mem_cons.1 hg with rfl | hg
  · exact hk
  · unfold EvSorted at hs
    rw [List.pairwise_cons, List.pairwise_cons] at hs
    have h1 := hs.1 f (by simp)
    have h2 := hs.2.1 g hg
    rw [hk] at h2
    exact endpointsLe_antisymm h2 h1

theorem common_found {l : List Ev} (hs : EvSorted h l) : (commonSegments h l).1 = true ↔
    ∃ e ∈ l, ∃ f ∈ l, h.evFirst e ≠ h.evFirst f ∧ evEndpoints h e = evEndpoints h f := by
  induction l with
  | nil => simp [commonSegments]
  | cons e l ih =>
    cases l with
    | nil => simp [commonSegments]
    | cons f rest =>
      have ih := ih hs.of_cons
      rw [common_cons]
      by_cases hc : h.evFirst e ≠ h.evFirst f ∧ evEndpoints h e = evEndpoints h f
      · rw [if_pos hc]
        simp only [true_iff]
        exact ⟨e, by simp, f, by simp, hc⟩
      · rw [if_neg hc, ih]
        constructor
        · rintro ⟨a, ha, b, hb, hab⟩
          exact ⟨a, List.mem_cons_of_mem _ ha, b, List.mem_cons_of_mem _ hb, hab⟩
        · have key : ∀ b ∈ f :: rest, h.evFirst e ≠ h.evFirst b → evEndpoints h e = evEndpoints h b →
              ∃ u ∈ f :: rest, ∃ v ∈ f :: rest, h.evFirst u ≠ h.evFirst v ∧ evEndpoints h u = evEndpoints h v := by
            intro b hb h1 h2
            have hf := evSorted_mid hs hb h2.symm
            refine ⟨f, by simp, b, hb, ?_, by rw [hf, h2]⟩
            intro h3
            exact hc ⟨by rw [h3]; exact h1, hf.symm⟩
          rintro ⟨a, ha, b, hb, hab, hk⟩
          rcases List.mem_cons.1 ha with rfl | ha' <;> rcases List.mem_cons.1 hb with rfl | hb'
          · exact absurd rfl hab
          · exact key b hb' hab hk
          · exact key a ha' hab.symm hk.symm
          · exact ⟨a, ha', b, hb', hab, hk⟩

theorem common_mem {l : List Ev} (hs : EvSorted h l)
    (hL : ∀ e ∈ l, ∀ f ∈ l, evEndpoints h e = evEndpoints h f → Heap.isLeft e = Heap.isLeft f) (t : Segment) :
    t ∈ (commonSegments h l).2 ↔
      ∃ e ∈ l, ∃ f ∈ l, h.evFirst e ≠ h.evFirst f ∧ evEndpoints h e = t ∧ evEndpoints h f = t ∧
        Heap.isLeft e = true := by
  induction l with
  | nil => simp [commonSegments]
  | cons e l ih =>
    cases l with
    | nil => simp [commonSegments]
    | cons f rest =>
      have ih := ih hs.of_cons
        (fun a ha b hb => hL a (List.mem_cons_of_mem _ ha) b (List.mem_cons_of_mem _ hb))
      have up : t ∈ (commonSegments h (f :: rest)).2 →
          ∃ a ∈ e :: f :: rest, ∃ b ∈ e :: f :: rest, h.evFirst a ≠ h.evFirst b ∧ evEndpoints h a = t ∧
            evEndpoints h b = t ∧ Heap.isLeft a = true := by
        intro ht
        obtain ⟨a, ha, b, hb, r⟩ := ih.1 ht
        exact ⟨a, List.mem_cons_of_mem _ ha, b, List.mem_cons_of_mem _ hb, r⟩
      rw [common_cons]
      by_cases hc : h.evFirst e ≠ h.evFirst f ∧ evEndpoints h e = evEndpoints h f
      · rw [if_pos hc]
        dsimp only
        constructor
        · intro ht
          by_cases hl : Heap.isLeft e = true
          · rw [if_pos hl] at ht
            rcases List.mem_cons.1 ht with rfl | ht
            · exact ⟨e, by simp, f, by simp, hc.1, rfl, hc.2.symm, hl⟩
            · exact up ht
          · rw [if_neg hl] at ht
            exact up ht
        · have key : ∀ b ∈ f :: rest, h.evFirst e ≠ h.evFirst b → evEndpoints h b = t → evEndpoints h e = t →
              Heap.isLeft e = true → t ∈ (if Heap.isLeft e then evEndpoints h e ::
                (commonSegments h (f :: rest)).2 else (commonSegments h (f :: rest)).2) := by
            intro b hb h1 h2 h3 h4
            rw [if_pos h4, h3]; simp
          rintro ⟨a, ha, b, hb, hab, hk, hk', hl⟩
          have hbl : Heap.isLeft b = true := by rw [← hL a ha b hb (hk.trans hk'.symm)]; exact hl
          rcases List.mem_cons.1 ha with rfl | ha' <;> rcases List.mem_cons.1 hb with rfl | hb'
          · exact absurd rfl hab
          · exact key b hb' hab hk' hk hl
          · exact key a ha' hab.symm hk hk' hbl
          · have := ih.2 ⟨a, ha', b, hb', hab, hk, hk', hl⟩
            split
            · exact List.mem_cons_of_mem _ this
            · exact this
      · rw [if_neg hc]
        refine ⟨up, ?_⟩
        have key : ∀ b ∈ f :: rest, h.evFirst e ≠ h.evFirst b → evEndpoints h b = t → evEndpoints h e = t →
              Heap.isLeft e = true → t ∈ (commonSegments h (f :: rest)).2 := by
          intro b hb h1 h2 h3 h4
          have hf := evSorted_mid hs hb (h2.trans h3.symm)
          refine ih.2 ⟨f, by simp, b, hb, ?_, hf.trans h3, h2, ?_⟩
          · intro h5
            exact hc ⟨by rw [h5]; exact h1, hf.symm⟩
          · rw [hL f (by simp) e (by simp) hf]; exact h4
        rintro ⟨a, ha, b, hb, hab, hk, hk', hl⟩
        have hbl : Heap.isLeft b = true := by rw [← hL a ha b hb (hk.trans hk'.symm)]; exact hl
        rcases List.mem_cons.1 ha with rfl | ha' <;> rcases List.mem_cons.1 hb with rfl | hb'
        · exact absurd rfl hab
        · exact key b hb' hab hk' hk hl
        · exact key a ha' hab.symm hk hk' hbl
        · exact ih.2 ⟨a, ha', b, hb', hab, hk, hk', hl⟩

theorem common_sublist (l : List Ev) : ((commonSegments h l).2).Sublist (l.map (evEndpoints h)) := by
  induction l with
  | nil => simp [commonSegments]
  | cons e l ih =>
    cases l with
    | nil => simp [commonSegments]
    | cons f rest =>
      rw [common_cons, List.map_cons]
      split
      · dsimp only
        split
        · exact ih.cons_cons _
        · exact ih.cons _
      · exact ih.cons _

theorem common_nodup {l : List Ev} (hs : EvSorted h l) (nd : l.Nodup)
    (hL : ∀ e ∈ l, ∀ f ∈ l, evEndpoints h e = evEndpoints h f → Heap.isLeft e = Heap.isLeft f)
    (h2 : ∀ e ∈ l, ∀ f ∈ l, e ≠ f → evEndpoints h e = evEndpoints h f → h.evFirst e ≠ h.evFirst f) :
    (commonSegments h l).2.Nodup := by
  induction l with
  | nil => simp [commonSegments]
  | cons e l ih =>
    cases l with
    | nil => simp [commonSegments]
    | cons f rest =>
      have hL' : ∀ a ∈ f :: rest, ∀ b ∈ f :: rest, evEndpoints h a = evEndpoints h b →
        Heap.isLeft a = Heap.isLeft b :=
        fun a ha b hb => hL a (List.mem_cons_of_mem _ ha) b (List.mem_cons_of_mem _ hb)
      have ih := ih hs.of_cons nd.of_cons hL'
        (fun a ha b hb => h2 a (List.mem_cons_of_mem _ ha) b (List.mem_cons_of_mem _ hb))
      rw [common_cons]
      split
      · dsimp only
        split
        · rw [List.nodup_cons]
          refine ⟨?_, ih⟩
          intro hm
          obtain ⟨a, ha, b, hb, hab, hk, hk', -⟩ := (common_mem hs.of_cons hL' _).1 hm
          have hea : e ≠ a := by rintro rfl; exact (List.nodup_cons.1 nd).1 ha
          have heb : e ≠ b := by rintro rfl; exact (List.nodup_cons.1 nd).1 hb
          have g1 := h2 e (by simp) a (List.mem_cons_of_mem _ ha) hea hk.symm
          have g2 := h2 e (by simp) b (List.mem_cons_of_mem _ hb) heb hk'.symm
          revert g1 g2 hab
          cases h.evFirst e <;> cases h.evFirst a <;> cases h.evFirst b <;> simp
        · exact ih
      · exact ih

theorem parts_cons (p : Point) (g : List Ev) (gs : List (Point × List Ev)) :
    commonParts h ((p, g) :: gs) =
      if allEqual (g.map h.evFirst) then commonParts h gs
      else (if (commonSegments h g).1 then (commonParts h gs).1 else p :: (commonParts h gs).1,
        (commonSegments h g).2 ++ (commonParts h gs).2) := rfl

theorem parts_points (gs : List (Point × List Ev)) (p : Point) : p ∈ (commonParts h gs).1 ↔
    ∃ x ∈ gs, x.1 = p ∧ allEqual (x.2.map h.evFirst) = false ∧ (commonSegments h x.2).1 = false := by
  induction gs with
  | nil => simp [commonParts]
  | cons x gs ih =>
    obtain ⟨r, g⟩ := x
    rw [parts_cons]
    simp only [List.mem_cons, exists_eq_or_imp]
    rw [← ih]
    cases ha : allEqual (g.map h.evFirst) <;> cases hc : (commonSegments h g).1 <;> simp [eq_comm]

theorem parts_segments (gs : List (Point × List Ev)) (t : Segment) : t ∈ (commonParts h gs).2 ↔
    ∃ x ∈ gs, allEqual (x.2.map h.evFirst) = false ∧ t ∈ (commonSegments h x.2).2 := by
  induction gs with
  | nil => simp [commonParts]
  | cons x gs ih =>
    obtain ⟨r, g⟩ := x
    rw [parts_cons]
    simp only [List.mem_cons, exists_eq_or_imp]
    rw [← ih]
    cases ha : allEqual (g.map h.evFirst) <;> simp

theorem parts_points_sublist (gs : List (Point × List Ev)) :
    ((commonParts h gs).1).Sublist (gs.map Prod.fst) := by
  induction gs with
  | nil => simp [commonParts]
  | cons x gs ih =>
    obtain ⟨r, g⟩ := x
    rw [parts_cons, List.map_cons]
    split
    · exact ih.cons _
    · dsimp only
      split
      · exact ih.cons _
      · exact ih.cons_cons _

theorem parts_segments_sublist (gs : List (Point × List Ev)) :
    ((commonParts h gs).2).Sublist ((gs.map Prod.snd).flatten.map (evEndpoints h)) := by
  induction gs with
  | nil => simp [commonParts]
  | cons x gs ih =>
    obtain ⟨r, g⟩ := x
    rw [parts_cons, List.map_cons, List.flatten_cons, List.map_append]
    split
    · exact ih.trans (List.sublist_append_right _ _)
    · exact (common_sublist g).append ih

theorem parts_segments_nodup (gs : List (Point × List Ev)) (nd : (gs.map Prod.fst).Nodup)
    (hk : ∀ x ∈ gs, ∀ e ∈ x.2, h.evStart e = x.1) (hc : ∀ x ∈ gs, (commonSegments h x.2).2.Nodup) :
    (commonParts h gs).2.Nodup := by
  induction gs with
  | nil => simp [commonParts]
  | cons x gs ih =>
    obtain ⟨r, g⟩ := x
    rw [List.map_cons, List.nodup_cons] at nd
    have ih := ih nd.2 (fun x hx => hk x (List.mem_cons_of_mem _ hx)) (fun x hx => hc x (List.mem_cons_of_mem _ hx))
    rw [parts_cons]
    split
    · exact ih
    · dsimp only
      rw [List.nodup_append]
      refine ⟨hc (r, g) (by simp), ih, ?_⟩
      rintro a ha b hb rfl
      obtain ⟨e, he, rfl⟩ := List.mem_map.1 ((common_sublist g).subset ha)
      obtain ⟨⟨r', g'⟩, hx, -, hb⟩ := (parts_segments gs _).1 hb
      obtain ⟨e', he', e2⟩ := List.mem_map.1 ((common_sublist g').subset hb)
      have h1 := hk (r, g) (by simp) e he
      have h2 := hk (r', g') (List.mem_cons_of_mem _ hx) e' he'
      have h3 : h.evStart e' = h.evStart e := congrArg Segment.start e2
      dsimp only at h1 h2
      apply nd.1
      rw [← h1, ← h3, h2]
      exact List.mem_map.2 ⟨_, hx, rfl⟩

end common

theorem groupRuns_flatten {β κ : Type} [DecidableEq κ] (key : β → κ) (l : List β) :
    ((groupRuns key l).map Prod.snd).flatten = l := by
  induction l with
  | nil => rfl
  | cons x l ih =>
    unfold groupRuns
    cases hg : groupRuns key l with
    | nil =>
      rw [hg] at ih
      simp at ih
      simp [ih]
    | cons y gs =>
      obtain ⟨k, g⟩ := y
      rw [hg] at ih
      simp only [List.map_cons, List.flatten_cons] at ih
      dsimp only
      split
      · simp [← ih]
      · simp [← ih]

/-- Lemma about the collected events: `points` and `segments` make up the common points. -/
theorem common_spec {h : Heap Unit} {F : List ℕ} {stop : Point → Bool} {a b : List Segment} {evs : List Ev}
    (f : Final h F stop (marked a b)) (ok : HeapOk h) (mono : ∀ p q, p ≤ q → stop p = true → stop q = true)
    (nd : evs.Nodup) (mem : ∀ e, e ∈ evs ↔ EvOk h e ∧ stop (h.evStart e) = false)
    (hall : ∀ i < h.count, ∀ j < h.count, h.first i = true → h.first j = false → i ∈ F ∨ j ∈ F) :
    ∀ parts, parts = commonParts h (groupRuns h.evStart
      (evs.insertionSort fun e f => endpointsLe (evEndpoints h e) (evEndpoints h f))) →
    (∀ q, (q ∈ parts.1 ∨ q ∈ segsPts parts.2) ↔ q ∈ segsPts a ∧ q ∈ segsPts b) ∧
    parts.1.Nodup ∧ parts.1.Pairwise (· ≤ ·) ∧ (∀ q ∈ parts.1, q ∉ segsPts parts.2) ∧ Swept parts.2 := by
  intro parts hparts
  set sorted := evs.insertionSort fun e f => endpointsLe (evEndpoints h e) (evEndpoints h f) with hsorted
  have perm : sorted.Perm evs := List.perm_insertionSort _ _
  have srt : EvSorted h sorted := by
    haveI : Std.Total (fun e f => endpointsLe (evEndpoints h e) (evEndpoints h f)) :=
      ⟨fun _ _ => endpointsLe_total _ _⟩
    haveI : IsTrans Ev (fun e f => endpointsLe (evEndpoints h e) (evEndpoints h f)) :=
      ⟨fun _ _ _ => endpointsLe_trans⟩
    exact List.pairwise_insertionSort (fun e f => endpointsLe (evEndpoints h e) (evEndpoints h f)) evs
  have nds : sorted.Nodup := perm.nodup_iff.2 nd
  have mems : ∀ e, e ∈ sorted ↔ EvOk h e ∧ stop (h.evStart e) = false := fun e => by rw [perm.mem_iff, mem]
  -- end points of left and right events
  have epl : ∀ i, evEndpoints h (.left i) = h.segment i := fun i => rfl
  have epr : ∀ j < h.count, evEndpoints h (.right j) = ⟨h.stop (h.rights j).left, h.start (h.rights j).left⟩ := by
    intro j hj
    unfold evEndpoints Heap.evStop Heap.opposite Heap.evStart Heap.stop Heap.start
    rw [ok.rl j hj]
  have hL : ∀ e ∈ sorted, ∀ f ∈ sorted, evEndpoints h e = evEndpoints h f → Heap.isLeft e = Heap.isLeft f := by
    have key : ∀ i j, EvOk h (.left i) → EvOk h (.right j) →
        evEndpoints h (.left i) ≠ evEndpoints h (.right j) := by
      intro i j hi hj he
      rw [epl, epr j hj] at he
      have h1 := f.lt i hi
      have h2 := f.lt _ (ok.llt j hj)
      have e1 : h.start i = h.stop (h.rights j).left := congrArg Segment.start he
      have e2 : h.stop i = h.start (h.rights j).left := congrArg Segment.stop he
      rw [e1, e2] at h1
      exact absurd h1 h2.asymm
    intro e he g hg hk
    have he := ((mems e).1 he).1
    have hg := ((mems g).1 hg).1
    cases e <;> cases g
    · rfl
    · exact absurd hk (key _ _ he hg)
    · exact absurd hk.symm (key _ _ hg he)
    · rfl
  have segOf : ∀ e g, EvOk h e → EvOk h g → Heap.isLeft e = Heap.isLeft g →
      (evEndpoints h e = evEndpoints h g ↔ h.segment (h.primary e) = h.segment (h.primary g)) := by
    intro e g he hg hl
    cases e <;> cases g
    · rfl
    · cases hl
    · cases hl
    · rw [epr _ he, epr _ hg]
      unfold Heap.segment Heap.primary
      rw [Segment.mk.injEq, Segment.mk.injEq, and_comm]
  have primlt : ∀ e, EvOk h e → h.primary e < h.count := by
    intro e he
    cases e with
    | left i => exact he
    | right j => exact ok.llt j he
  have h2 : ∀ e ∈ sorted, ∀ g ∈ sorted, e ≠ g → evEndpoints h e = evEndpoints h g → h.evFirst e ≠ h.evFirst g := by
    intro e he g hg hne hk
    have hl := hL e he g hg hk
    replace he := ((mems e).1 he).1
    replace hg := ((mems g).1 hg).1
    have hs := (segOf e g he hg hl).1 hk
    refine f.op _ (primlt e he) _ (primlt g hg) ?_ hs
    intro hp
    apply hne
    cases e <;> cases g
    · exact congrArg Ev.left hp
    · cases hl
    · cases hl
    · rename_i j j'
      have := congrArg (fun i => (h.lefts i).right) (show (h.rights j).left = (h.rights j').left from hp)
      simp only [ok.rl j he, ok.rl j' hg] at this
      rw [this]
  have contig : Contig h.evStart sorted := by
    intro l₁ l₂ l₃ x y e hk z hz
    have srt' := srt
    unfold EvSorted at srt'
    rw [e, List.append_assoc, List.pairwise_append] at srt'
    have s2 := srt'.2.1
    rw [List.cons_append, List.pairwise_cons] at s2
    have h1 := s2.1 z (by simp [hz])
    have h3 := (List.pairwise_append.1 s2.2).2.2 z hz y (by simp)
    have le1 : h.evStart x ≤ h.evStart z := by
      rcases h1 with h1 | h1
      · exact h1.le
      · exact h1.1.le
    have le2 : h.evStart z ≤ h.evStart y := by
      rcases h3 with h1 | h1
      · exact h1.le
      · exact h1.1.le
    rw [← hk] at le2
    exact le_antisymm le2 le1
  have gm := fun k g => groupRuns_mem (key := h.evStart) contig k g
  set gs := groupRuns h.evStart sorted with hgs
  -- the groups
  have gsub : ∀ x ∈ gs, ∀ e, e ∈ x.2 ↔ e ∈ sorted ∧ h.evStart e = x.1 := by
    rintro ⟨k, g⟩ hx e
    rw [((gm k g).1 hx).2, List.mem_filter, decide_eq_true_eq]
  have gsorted : ∀ x ∈ gs, EvSorted h x.2 ∧ x.2.Nodup := by
    rintro ⟨k, g⟩ hx
    rw [((gm k g).1 hx).2]
    exact ⟨srt.sublist List.filter_sublist, nds.sublist List.filter_sublist⟩
  have gex : ∀ p, (∃ e ∈ sorted, h.evStart e = p) → ∃ x ∈ gs, x.1 = p := by
    intro p hp
    exact ⟨(p, sorted.filter fun e => decide (h.evStart e = p)), (gm _ _).2 ⟨hp, rfl⟩, rfl⟩
  have gL : ∀ x ∈ gs, ∀ e ∈ x.2, ∀ g ∈ x.2, evEndpoints h e = evEndpoints h g → Heap.isLeft e = Heap.isLeft g :=
    fun x hx e he g hg => hL e ((gsub x hx e).1 he).1 g ((gsub x hx g).1 hg).1
  -- a pair of equal segments of different operands
  have pairF : ∀ i < h.count, ∀ j < h.count, h.first i ≠ h.first j → h.segment i = h.segment j →
      i ∈ F ∧ j ∈ F := by
    intro i hi j hj hne he
    have hs : h.stop i = h.stop j := congrArg Segment.stop he
    have : i ∈ F ↔ j ∈ F := by rw [f.done i hi, f.done j hj, hs]
    have : i ∈ F ∨ j ∈ F := by
      cases h1 : h.first i <;> cases h2 : h.first j
      · exact absurd (h1.trans h2.symm) hne
      · exact (hall j hj i hi h2 h1).symm
      · exact hall i hi j hj h1 h2
      · exact absurd (h1.trans h2.symm) hne
    tauto
  have stopF : ∀ i ∈ F, stop (h.start i) = false ∧ stop (h.stop i) = false := by
    intro i hi
    have hs := (f.done i (f.bound i hi)).1 hi
    refine ⟨?_, hs⟩
    by_contra hc
    rw [mono _ _ (f.lt i (f.bound i hi)).le (by simpa using hc)] at hs
    cases hs
  -- segments of the result
  have segs : ∀ t, t ∈ parts.2 ↔ ∃ i < h.count, ∃ j < h.count, h.first i ≠ h.first j ∧
      h.segment i = t ∧ h.segment j = t := by
    intro t
    rw [hparts, parts_segments]
    constructor
    · rintro ⟨x, hx, -, ht⟩
      obtain ⟨e, he, g, hg, hne, hk, hk', hl⟩ := (common_mem (gsorted x hx).1 (gL x hx) t).1 ht
      have hgl := gL x hx e he g hg (hk.trans hk'.symm)
      have oe := ((mems e).1 ((gsub x hx e).1 he).1).1
      have og := ((mems g).1 ((gsub x hx g).1 hg).1).1
      cases e with
      | right _ => cases hl
      | left i =>
        cases g with
        | right _ => cases hgl
        | left j => exact ⟨i, oe, j, og, hne, hk, hk'⟩
    · rintro ⟨i, hi, j, hj, hne, rfl, e⟩
      obtain ⟨hiF, hjF⟩ := pairF i hi j hj hne e.symm
      have mi : Ev.left i ∈ sorted := (mems _).2 ⟨hi, (stopF i hiF).1⟩
      have mj : Ev.left j ∈ sorted := (mems _).2 ⟨hj, (stopF j hjF).1⟩
      obtain ⟨x, hx, hxp⟩ := gex (h.start i) ⟨_, mi, rfl⟩
      have gi : Ev.left i ∈ x.2 := (gsub x hx _).2 ⟨mi, hxp.symm⟩
      have gj : Ev.left j ∈ x.2 := (gsub x hx _).2 ⟨mj, by rw [hxp]; exact congrArg Segment.start e⟩
      refine ⟨x, hx, ?_, (common_mem (gsorted x hx).1 (gL x hx) _).2
        ⟨_, gi, _, gj, hne, rfl, e, rfl⟩⟩
      rw [← Bool.not_eq_true, allEqual_iff]
      intro hh
      exact hne (hh _ (List.mem_map_of_mem gi) _ (List.mem_map_of_mem gj))
  -- end points are starts of events
  have ends : ∀ i < h.count, ∀ q, (h.segment i).IsEnd q → ∃ e, EvOk h e ∧ h.evStart e = q ∧ h.primary e = i := by
    intro i hi q hq
    rcases hq with rfl | rfl
    · exact ⟨.left i, hi, rfl, rfl⟩
    · exact ⟨.right (h.lefts i).right, ok.rlt i hi, rfl, ok.lr i hi⟩
  have evEnd : ∀ e, EvOk h e → (h.segment (h.primary e)).IsEnd (h.evStart e) := by
    intro e he
    cases e with
    | left i => exact Or.inl rfl
    | right j =>
      right
      have : h.stop (h.rights j).left = (h.rights j).start := by unfold Heap.stop; rw [ok.rl j he]
      exact this.symm
  -- the pairs of equal segments seen from an end point
  have pairAt : ∀ i < h.count, ∀ j < h.count, h.first i ≠ h.first j → h.segment i = h.segment j → ∀ q,
      (h.segment i).IsEnd q → ∀ x ∈ gs, x.1 = q → (commonSegments h x.2).1 = true := by
    intro i hi j hj hne he q hq x hx hxq
    obtain ⟨hiF, hjF⟩ := pairF i hi j hj hne he
    rw [common_found (gsorted x hx).1]
    rcases hq with rfl | rfl
    · refine ⟨.left i, (gsub x hx _).2 ⟨(mems _).2 ⟨hi, (stopF i hiF).1⟩, hxq.symm⟩, .left j,
        (gsub x hx _).2 ⟨(mems _).2 ⟨hj, (stopF j hjF).1⟩, ?_⟩, hne, he⟩
      rw [hxq, he]; rfl
    · have ri := ok.rlt i hi
      have rj := ok.rlt j hj
      refine ⟨.right (h.lefts i).right, (gsub x hx _).2 ⟨(mems _).2 ⟨ri, (stopF i hiF).2⟩, hxq.symm⟩,
        .right (h.lefts j).right, (gsub x hx _).2 ⟨(mems _).2 ⟨rj, (stopF j hjF).2⟩, ?_⟩, ?_, ?_⟩
      · rw [hxq, he]; rfl
      · unfold Heap.evFirst Heap.primary
        dsimp only
        rw [ok.lr i hi, ok.lr j hj]; exact hne
      · rw [segOf (.right _) (.right _) ri rj rfl]
        unfold Heap.primary
        dsimp only
        rw [ok.lr i hi, ok.lr j hj]; exact he
  -- common end points
  have both : ∀ p, (∃ x ∈ gs, x.1 = p ∧ allEqual (x.2.map h.evFirst) = false) →
      ∃ i < h.count, ∃ j < h.count, h.first i = true ∧ h.first j = false ∧ (h.segment i).IsEnd p ∧
        (h.segment j).IsEnd p := by
    rintro p ⟨x, hx, rfl, ha⟩
    rw [← Bool.not_eq_true, allEqual_iff] at ha
    push Not at ha
    obtain ⟨u, hu, v, hv, huv⟩ := ha
    obtain ⟨e, he, rfl⟩ := List.mem_map.1 hu
    obtain ⟨g, hg, rfl⟩ := List.mem_map.1 hv
    have oe := ((mems e).1 ((gsub x hx e).1 he).1).1
    have og := ((mems g).1 ((gsub x hx g).1 hg).1).1
    have ee := evEnd e oe
    have eg := evEnd g og
    rw [((gsub x hx e).1 he).2] at ee
    rw [((gsub x hx g).1 hg).2] at eg
    cases h1 : h.evFirst e <;> cases h3 : h.evFirst g
    · exact absurd (h1.trans h3.symm) huv
    · exact ⟨_, primlt g og, _, primlt e oe, h3, h1, eg, ee⟩
    · exact ⟨_, primlt e oe, _, primlt g og, h1, h3, ee, eg⟩
    · exact absurd (h1.trans h3.symm) huv
  have pts : ∀ p, p ∈ parts.1 ↔ ∃ x ∈ gs, x.1 = p ∧ allEqual (x.2.map h.evFirst) = false ∧
      (commonSegments h x.2).1 = false := by
    intro p; rw [hparts, parts_points]
  have isEnd_mem : ∀ {s : Segment} {q : Point}, s.IsEnd q → q ∈ s.pts := by
    rintro s q (rfl | rfl)
    · exact s.start_mem
    · exact s.stop_mem
  -- a point on segments of both operands
  have cover : ∀ i < h.count, ∀ j < h.count, h.first i ≠ h.first j → i ∈ F → ∀ q, q ∈ (h.segment i).pts →
      q ∈ (h.segment j).pts → q ∈ parts.1 ∨ q ∈ segsPts parts.2 := by
    intro i hi j hj hne hiF q hqi hqj
    rcases f.pair i hiF j hj with ⟨e, hjF⟩ | g
    · exact Or.inr ⟨h.segment i, (segs _).2 ⟨i, hi, j, hj, hne, rfl, e.symm⟩, hqi⟩
    · obtain ⟨e1, e2⟩ := g q hqi hqj
      have hst : stop q = false := by
        rcases e1 with rfl | rfl
        · exact (stopF i hiF).1
        · exact (stopF i hiF).2
      obtain ⟨e, oe, rfl, pe⟩ := ends i hi q e1
      obtain ⟨e', oe', he', pe'⟩ := ends j hj _ e2
      have me : e ∈ sorted := (mems _).2 ⟨oe, hst⟩
      have me' : e' ∈ sorted := (mems _).2 ⟨oe', by rw [he']; exact hst⟩
      obtain ⟨x, hx, hxp⟩ := gex (h.evStart e) ⟨_, me, rfl⟩
      have hae : allEqual (x.2.map h.evFirst) = false := by
        rw [← Bool.not_eq_true, allEqual_iff]
        intro hh
        have := hh _ (List.mem_map_of_mem ((gsub x hx e).2 ⟨me, hxp.symm⟩)) _
          (List.mem_map_of_mem ((gsub x hx e').2 ⟨me', by rw [he', hxp]⟩))
        unfold Heap.evFirst at this
        rw [pe, pe'] at this
        exact hne this
      cases hc : (commonSegments h x.2).1
      · exact Or.inl ((pts _).2 ⟨x, hx, hxp, hae, hc⟩)
      · right
        obtain ⟨u, hu, v, hv, huv, hk⟩ := (common_found (gsorted x hx).1).1 hc
        have hl := gL x hx u hu v hv hk
        have ou := ((mems u).1 ((gsub x hx u).1 hu).1).1
        have ov := ((mems v).1 ((gsub x hx v).1 hv).1).1
        have hseg := (segOf u v ou ov hl).1 hk
        refine ⟨_, (segs _).2 ⟨_, primlt u ou, _, primlt v ov, huv, rfl, hseg.symm⟩, ?_⟩
        have := evEnd u ou
        rw [((gsub x hx u).1 hu).2, hxp] at this
        exact isEnd_mem this
  refine ⟨?_, ?_, ?_, ?_, ?_, ?_, ?_, ?_⟩
  · intro q
    rw [f.mem_first, f.mem_second]
    constructor
    · rintro (hq | ⟨t, ht, hq⟩)
      · obtain ⟨x, hx, hxp, ha, -⟩ := (pts q).1 hq
        obtain ⟨i, hi, j, hj, h1, h2, e1, e2⟩ := both q ⟨x, hx, hxp, ha⟩
        exact ⟨⟨i, hi, h1, isEnd_mem e1⟩, ⟨j, hj, h2, isEnd_mem e2⟩⟩
      · obtain ⟨i, hi, j, hj, hne, e1, e2⟩ := (segs t).1 ht
        cases h1 : h.first i <;> cases h3 : h.first j
        · exact absurd (h1.trans h3.symm) hne
        · exact ⟨⟨j, hj, h3, e2 ▸ hq⟩, ⟨i, hi, h1, e1 ▸ hq⟩⟩
        · exact ⟨⟨i, hi, h1, e1 ▸ hq⟩, ⟨j, hj, h3, e2 ▸ hq⟩⟩
        · exact absurd (h1.trans h3.symm) hne
    · rintro ⟨⟨i, hi, h1, hqi⟩, ⟨j, hj, h2, hqj⟩⟩
      have hne : h.first i ≠ h.first j := by rw [h1, h2]; simp
      rcases hall i hi j hj h1 h2 with hF | hF
      · exact cover i hi j hj hne hF q hqi hqj
      · exact cover j hj i hi hne.symm hF q hqj hqi
  · rw [hparts]
    exact (groupRuns_nodup contig).sublist (parts_points_sublist _)
  · rw [hparts]
    refine List.Pairwise.sublist (parts_points_sublist _) ?_
    refine List.Pairwise.sublist (groupRuns_keys _) ?_
    rw [List.pairwise_map]
    refine srt.imp ?_
    rintro e g (hh | hh)
    · exact le_of_lt hh
    · exact le_of_eq hh.1
  · rintro q hq ⟨t, ht, hqt⟩
    obtain ⟨x, hx, hxp, ha, hc⟩ := (pts q).1 hq
    obtain ⟨i, hi, j, hj, h1, h2, e1, e2⟩ := both q ⟨x, hx, hxp, ha⟩
    obtain ⟨i', hi', j', hj', hne, rfl, e⟩ := (segs t).1 ht
    obtain ⟨hiF, -⟩ := pairF i' hi' j' hj' hne e.symm
    have hend : (h.segment i').IsEnd q := by
      rcases f.pair i' hiF i hi with ⟨e', -⟩ | g
      · rw [e']; exact e1
      · exact (g q hqt (isEnd_mem e1)).1
    rw [pairAt i' hi' j' hj' hne e.symm q hend x hx hxp] at hc
    cases hc
  · intro t ht
    obtain ⟨i, hi, j, hj, hne, rfl, e⟩ := (segs t).1 ht
    exact f.lt i hi
  · rw [hparts]
    refine parts_segments_nodup _ (groupRuns_nodup contig) ?_ ?_
    · intro x hx e he; exact ((gsub x hx e).1 he).2
    · intro x hx
      exact common_nodup (gsorted x hx).1 (gsorted x hx).2 (gL x hx)
        (fun e he g hg => h2 e ((gsub x hx e).1 he).1 g ((gsub x hx g).1 hg).1)
  · rw [hparts]
    refine List.Pairwise.sublist (parts_segments_sublist _) ?_
    rw [groupRuns_flatten, List.pairwise_map]
    exact srt
  · have nd2 : parts.2.Nodup := by
      rw [hparts]
      refine parts_segments_nodup _ (groupRuns_nodup contig) ?_ ?_
      · intro x hx e he; exact ((gsub x hx e).1 he).2
      · intro x hx
        exact common_nodup (gsorted x hx).1 (gsorted x hx).2 (gL x hx)
          (fun e he g hg => h2 e ((gsub x hx e).1 he).1 g ((gsub x hx g).1 hg).1)
    unfold EndsOnly
    refine (List.Pairwise.and_mem.1 nd2).imp ?_
    rintro s t ⟨hs, ht, hne⟩
    obtain ⟨i, hi, j, hj, hij, rfl, e⟩ := (segs s).1 hs
    obtain ⟨i', hi', j', hj', -, rfl, -⟩ := (segs t).1 ht
    rcases f.pair i (pairF i hi j hj hij e.symm).1 i' hi' with ⟨e, -⟩ | g
    · exact absurd e hne
    · exact g

theorem linearSweepAll_final (tb : TieBreak) (xmax : ℚ) {a b : List Segment} (ha : NoOverlap a)
    (hb : NoOverlap b) : ∃ h F evs, linearSweepAll tb xmax a b = .ok (h, evs) ∧
      Final h F (stopAt (some xmax)) (marked a b) ∧ HeapOk h ∧ evs.Nodup ∧
      ∀ e, e ∈ evs ↔ EvOk h e ∧ stopAt (some xmax) (h.evStart e) = false := by
  obtain ⟨s, log, e, -, f, nd, -, ok, hm⟩ := sweep_final linearOps () tb (stopAt (some xmax))
    (operandsOk_marked ha hb) (stopAt_mono _)
  refine ⟨s.store.heap, _, (log.map Prod.fst).reverse, ?_, f, ok, List.nodup_reverse.2 nd, ?_⟩
  · unfold linearSweepAll
    rw [e]
    simp only [List.map_reverse]
  · intro e; rw [List.mem_reverse, hm]

/-- `CompleteIntersection.compute` -/
theorem linearCompleteIntersection_result (tb : TieBreak) {o₁ o₂ : LinearOperand} (k₁ : OperandOk o₁)
    (k₂ : OperandOk o₂) : ∃ ps l, linearCompleteIntersection tb o₁ o₂ =
      .ok (unpackLinearMix (unpackPoints ps) (unpackSegments l)) ∧
    (∀ q, (q ∈ ps ∨ q ∈ segsPts l) ↔ q ∈ segsPts o₁.segments ∧ q ∈ segsPts o₂.segments) ∧
    ps.Nodup ∧ ps.Pairwise (· ≤ ·) ∧ (∀ q ∈ ps, q ∉ segsPts l) ∧ Swept l := by
  have swept_nil : Swept [] := ⟨by simp, List.nodup_nil, List.Pairwise.nil, List.Pairwise.nil⟩
  have none : (∀ q, ¬ (q ∈ segsPts o₁.segments ∧ q ∈ segsPts o₂.segments)) →
    (∀ q, (q ∈ ([] : List Point) ∨ q ∈ segsPts []) ↔ q ∈ segsPts o₁.segments ∧ q ∈ segsPts o₂.segments) ∧
    ([] : List Point).Nodup ∧ ([] : List Point).Pairwise (· ≤ ·) ∧ (∀ q ∈ ([] : List Point), q ∉ segsPts []) ∧
      Swept [] := by
    intro hn
    refine ⟨fun q => ?_, List.nodup_nil, List.Pairwise.nil, by simp, swept_nil⟩
    rw [segsPts_nil]
    simp [hn q]
  obtain ⟨b₁, hb₁⟩ := boxOf_ok k₁.ne
  obtain ⟨b₂, hb₂⟩ := boxOf_ok k₂.ne
  obtain ⟨i₁, n₁⟩ := boxOf_spec hb₁
  obtain ⟨i₂, n₂⟩ := boxOf_spec hb₂
  unfold linearCompleteIntersection
  rw [hb₁, hb₂]
  simp only [bind, Except.bind, pure, Except.pure]
  by_cases hd : disjointWith b₁ b₂ = true
  · rw [if_pos hd]
    have := disjoint_boxes hb₁ hb₂ hd
    exact ⟨[], [], rfl, none fun q hq => this q hq.1 hq.2⟩
  rw [if_neg hd]
  have e₁ := (toIntersectingSegments_spec b₂ o₁.segments n₂ k₁.no.1).2.1
  have e₂ := (toIntersectingSegments_spec b₁ o₂.segments n₁ k₂.no.1).2.1
  have s₁ : (toIntersectingSegments b₂ o₁.segments).Sublist o₁.segments := List.filter_sublist
  have s₂ : (toIntersectingSegments b₁ o₂.segments).Sublist o₂.segments := List.filter_sublist
  have red : ∀ q, (q ∈ segsPts o₁.segments ∧ q ∈ segsPts o₂.segments) ↔
      (q ∈ segsPts (toIntersectingSegments b₂ o₁.segments) ∧ q ∈ segsPts (toIntersectingSegments b₁ o₂.segments)) := by
    intro q
    constructor
    · rintro ⟨h1, h2⟩
      have g1 : q ∈ segsPts o₁.segments ∩ b₂.pts := ⟨h1, i₂ h2⟩
      have g2 : q ∈ segsPts o₂.segments ∩ b₁.pts := ⟨h2, i₁ h1⟩
      rw [← e₁] at g1
      rw [← e₂] at g2
      exact ⟨g1.1, g2.1⟩
    · rintro ⟨h1, h2⟩
      exact ⟨segsPts_mono s₁.subset h1, segsPts_mono s₂.subset h2⟩
  by_cases he₁ : (toIntersectingSegments b₂ o₁.segments).isEmpty = true
  · rw [if_pos he₁]
    refine ⟨[], [], rfl, none fun q hq => ?_⟩
    have := ((red q).1 hq).1
    rw [List.isEmpty_iff.1 he₁, segsPts_nil] at this
    exact this
  rw [if_neg he₁]
  by_cases he₂ : (toIntersectingSegments b₁ o₂.segments).isEmpty = true
  · rw [if_pos he₂]
    refine ⟨[], [], rfl, none fun q hq => ?_⟩
    have := ((red q).1 hq).2
    rw [List.isEmpty_iff.1 he₂, segsPts_nil] at this
    exact this
  rw [if_neg he₂]
  obtain ⟨m₁, hm₁⟩ := maxXOf_ok (l := toIntersectingSegments b₂ o₁.segments) (by
    intro h; exact he₁ (by rw [h]; rfl))
  obtain ⟨m₂, hm₂⟩ := maxXOf_ok (l := toIntersectingSegments b₁ o₂.segments) (by
    intro h; exact he₂ (by rw [h]; rfl))
  rw [hm₁, hm₂]
  obtain ⟨h, F, evs, e, f, ok, nd, mem⟩ := linearSweepAll_final tb (min m₁ m₂)
    (k₁.no.sublist s₁) (k₂.no.sublist s₂)
  dsimp only
  rw [e]
  dsimp only
  have hall : ∀ i < h.count, ∀ j < h.count, h.first i = true → h.first j = false → i ∈ F ∨ j ∈ F := by
    intro i hi j hj hfi hfj
    rw [f.done i hi, f.done j hj]
    have g1 : h.stop i ∈ segsPts (toIntersectingSegments b₂ o₁.segments) :=
      f.mem_first.2 ⟨i, hi, hfi, (h.segment i).stop_mem⟩
    have g2 : h.stop j ∈ segsPts (toIntersectingSegments b₁ o₂.segments) :=
      f.mem_second.2 ⟨j, hj, hfj, (h.segment j).stop_mem⟩
    have g1 := maxXOf_spec hm₁ g1
    have g2 := maxXOf_spec hm₂ g2
    simp only [stopAt, decide_eq_false_iff_not, not_lt]
    rcases min_choice m₁ m₂ with e | e <;> rw [e]
    · exact Or.inl g1
    · exact Or.inr g2
  have := common_spec f ok (stopAt_mono _) nd mem hall _ rfl
  refine ⟨_, _, rfl, ?_, this.2⟩
  intro q
  rw [this.1 q, red q]

end Clipping

import Verif.Lemmas.TreeSweep.General
import Verif.Lemmas.LinearComplete
import Verif.Lemmas.LinearResult

/-!
# The operations on segments with any segments
-/

namespace Clipping.TreeSweep

open Sweep Nary

variable {α : Type} {a b : List Segment}

/-- Before the loop. -/
theorem sound_init (P : Payload α) (d : α) (pa : ∀ s ∈ a, s.Proper) (pb : ∀ s ∈ b, s.Proper) :
    ∃ ε, Sound ε (points (a ++ b)) (marked a b) (initStore P d a b) ∧
      potential ε (points (a ++ b)) (initStore P d a b) < sweepFuel (a.length + b.length) := by
  have f := fresh_init P d a b
  set s := initStore P d a b
  set l := a ++ b with hl
  have hlen : (marked a b).length = a.length + b.length := by simp [marked]
  have hfst : (marked a b).map Prod.fst = l := by simp [marked, hl, Function.comp_def]
  have prl : ∀ x ∈ l, x.Proper := by
    intro x hx
    rcases List.mem_append.1 hx with h | h
    exacts [pa x h, pb x h]
  set Pt := points l with hPt
  obtain ⟨ε, ho⟩ := exists_orders Pt
  have hk : ∀ k < s.heap.count, ∃ x ∈ marked a b, s.heap.segment k = ⟨x.1.lo, x.1.hi⟩ ∧ s.heap.first k = x.2 := by
    intro k hk
    rw [f.count] at hk
    have := List.getElem?_eq_getElem hk
    exact ⟨_, List.getElem_mem hk, f.segment this, (f.get k _ this).2.2.2.2⟩
  have hml : ∀ {x}, x ∈ marked a b → x.1 ∈ l := by
    intro x hx
    rw [← hfst]
    exact List.mem_map_of_mem hx
  have mem : ∀ k < s.heap.count, s.heap.start k ∈ Pt ∧ s.heap.stop k ∈ Pt := by
    intro k hk'
    obtain ⟨x, hx, e, -⟩ := hk k hk'
    have e1 : s.heap.start k = x.1.lo := congrArg Segment.start e
    have e2 : s.heap.stop k = x.1.hi := congrArg Segment.stop e
    rw [e1, e2]
    exact mem_points_end (hml hx)
  have lt : ∀ k < s.heap.count, s.heap.start k < s.heap.stop k := by
    intro k hk'
    obtain ⟨x, hx, e, -⟩ := hk k hk'
    have e1 : s.heap.start k = x.1.lo := congrArg Segment.start e
    have e2 : s.heap.stop k = x.1.hi := congrArg Segment.stop e
    rw [e1, e2]
    exact lo_lt_hi (prl _ (hml hx))
  have proper : ∀ k < s.heap.count, (absSeg ε s.heap k).a < (absSeg ε s.heap k).b := by
    intro k hk'
    exact ho _ (mem k hk').1 _ (mem k hk').2 (lt k hk')
  refine ⟨ε, ⟨f.heapOk, ⟨ho, mem, ?_⟩, proper, fun e he => (f.mem e).1 he, ?_⟩, ?_⟩
  · intro i hi j hj hc q hq1 hq2
    rw [← sameLine_iff (proper i hi) (proper j hj) (lt i hi) (lt j hj)] at hc
    obtain ⟨x, hx, ei, -⟩ := hk i hi
    obtain ⟨y, hy, ej, -⟩ := hk j hj
    rw [ei] at hc hq1
    rw [ej] at hc hq2
    rw [pts_lo_hi] at hq1 hq2
    have hc' : ¬ SameLine x.1 y.1 := by
      intro h
      apply hc
      unfold SameLine at h ⊢
      simpa [Segment.lo, Segment.hi] using h
    obtain ⟨e1, e2⟩ := relation_not_collinear (prl _ (hml hx)) (prl _ (hml hy)) hc' hq1 hq2
    rw [e1]
    exact mem_points_cross (hml hx) (hml hy) e2
  · intro i hi
    obtain ⟨x, hx, ei, ef⟩ := hk i hi
    exact ⟨x, hx, ef, by rw [ei, pts_lo_hi]⟩
  · have hc : s.heap.count = l.length := by rw [f.count, hlen, hl, List.length_append]
    have hq : s.queue.length = 2 * l.length := by rw [f.length, hlen, hl, List.length_append]
    have ht : total ε Pt s.heap ≤ l.length * (2 * l.length + l.length * l.length) := by
      unfold total
      refine (Finset.sum_le_card_nsmul _ _ (2 * l.length + l.length * l.length) fun i _ => ?_).trans ?_
      · exact (List.length_filter_le _ _).trans (points_length l)
      · rw [Finset.card_range, hc, smul_eq_mul]
    unfold potential sweepFuel
    rw [← List.length_append, ← hl]
    omega

/-- What is known of the events after the sweep. -/
structure Pieces (a b : List Segment) (h : Heap α) (log : List (Ev × ℕ)) : Prop where
  ok : HeapOk h
  log : LogSound h log
  lt : ∀ i < h.count, h.start i < h.stop i
  vert : ∀ i < h.count, Vertex (a ++ b) (h.start i) ∧ Vertex (a ++ b) (h.stop i)
  first : ∀ i < h.count, h.first i = true → PartOf (h.segment i) a
  second : ∀ i < h.count, h.first i = false → PartOf (h.segment i) b

theorem SoundState.pieces {ε : ℚ} {s : TreeState α} {log : List (Ev × ℕ)} (pa : ∀ s ∈ a, s.Proper) (pb : ∀ s ∈ b, s.Proper)
    (S' : SoundState ε (points (a ++ b)) (marked a b) s) (hl : LogSound s.store.heap log) : Pieces a b s.store.heap log := by
  have prl : ∀ x ∈ a ++ b, x.Proper := by
    intro x hx
    rcases List.mem_append.1 hx with h | h
    exacts [pa x h, pb x h]
  refine ⟨S'.store.ok, hl, ?_, ?_, ?_, ?_⟩
  · intro i hi
    have m := S'.store.pts.mem i hi
    exact (S'.store.pts.ord.lt_iff m.1 m.2).2 (S'.store.pr i hi)
  · intro i hi
    have m := S'.store.pts.mem i hi
    exact ⟨points_vertex prl m.1, points_vertex prl m.2⟩
  · intro i hi hf
    obtain ⟨x, hx, e, hp⟩ := S'.store.par i hi
    rw [hf] at e
    unfold marked at hx
    rcases List.mem_append.1 hx with hx | hx
    · obtain ⟨t, ht, rfl⟩ := List.mem_map.1 hx; exact ⟨t, ht, hp⟩
    · obtain ⟨t, ht, rfl⟩ := List.mem_map.1 hx; cases e
  · intro i hi hf
    obtain ⟨x, hx, e, hp⟩ := S'.store.par i hi
    rw [hf] at e
    unfold marked at hx
    rcases List.mem_append.1 hx with hx | hx
    · obtain ⟨t, ht, rfl⟩ := List.mem_map.1 hx; cases e
    · obtain ⟨t, ht, rfl⟩ := List.mem_map.1 hx; exact ⟨t, ht, hp⟩

/-- Every sweep over any segments ends or raises the error. -/
theorem treeSweep_good (B : Balancing) (O : Ops α) (d : α) (tb : TieBreak) (stop : Point → Bool)
    (pa : ∀ s ∈ a, s.Proper) (pb : ∀ s ∈ b, s.Proper) :
    treeSweep B O d tb stop a b = .error .sameOperandOverlap ∨
      ∃ s log, treeSweep B O d tb stop a b = .ok (s, log) ∧ Pieces a b s.store.heap log := by
  obtain ⟨ε, S, hp⟩ := sound_init O.toPayload d pa pb
  rcases treeLoop_good (O := O) (B := B) (tb := tb) (stop := stop) (sweepFuel (a.length + b.length))
    ⟨initStore O.toPayload d a b, .nil⟩ [] ⟨S, by simp [RTree.inorder]⟩ (by intro x hx; cases hx) hp with h | ⟨s, log, h, S', hl⟩
  · exact Or.inl h
  · exact Or.inr ⟨s, log, h, S'.pieces pa pb hl⟩

theorem groupRuns_run {β κ : Type} [DecidableEq κ] {key : β → κ} : ∀ {l : List β} {k : κ} {g : List β}, (k, g) ∈ groupRuns key l →
    g ≠ [] ∧ ∀ x ∈ g, x ∈ l ∧ key x = k := by
  intro l
  induction l with
  | nil => intro k g h; cases h
  | cons y l ih =>
    intro k g h
    unfold groupRuns at h
    split at h
    · simp only [List.mem_singleton, Prod.mk.injEq] at h
      obtain ⟨rfl, rfl⟩ := h
      simp
    · rename_i k' g' rest e
      split_ifs at h with hk
      · rcases List.mem_cons.1 h with h | h
        · simp only [Prod.mk.injEq] at h
          obtain ⟨rfl, rfl⟩ := h
          obtain ⟨-, i⟩ := ih (k := k) (g := g') (by rw [e]; simp)
          refine ⟨by simp, fun x hx => ?_⟩
          rcases List.mem_cons.1 hx with rfl | hx
          · exact ⟨by simp, hk⟩
          · exact ⟨List.mem_cons_of_mem _ (i x hx).1, (i x hx).2⟩
        · obtain ⟨n, i⟩ := ih (k := k) (g := g) (by rw [e]; simp [h])
          exact ⟨n, fun x hx => ⟨List.mem_cons_of_mem _ (i x hx).1, (i x hx).2⟩⟩
      · rcases List.mem_cons.1 h with h | h
        · simp only [Prod.mk.injEq] at h
          obtain ⟨rfl, rfl⟩ := h
          simp
        · obtain ⟨n, i⟩ := ih (k := k) (g := g) (by rw [e]; exact h)
          exact ⟨n, fun x hx => ⟨List.mem_cons_of_mem _ (i x hx).1, (i x hx).2⟩⟩

theorem selectSegments_run {keep : List Bool → Bool} {h : Heap Unit} {F : List ℕ} {c : Segment} (hc : c ∈ selectSegments keep h F) :
    ∃ g : List ℕ, g ≠ [] ∧ (∀ i ∈ g, i ∈ F ∧ h.segment i = c) ∧ keep (g.map h.first) = true := by
  unfold selectSegments at hc
  rw [(sortEndpoints_perm _).mem_iff, List.mem_map] at hc
  obtain ⟨⟨k, g⟩, hx, rfl⟩ := hc
  rw [List.mem_filter] at hx
  obtain ⟨n, i⟩ := groupRuns_run hx.1
  exact ⟨g, n, i, hx.2⟩

theorem allEqual_const {l : List Bool} {c : Bool} (h : ∀ x ∈ l, x = c) : allEqual l = true := by
  cases l with
  | nil => rfl
  | cons x l =>
    unfold allEqual
    rw [List.all_eq_true]
    intro y hy
    rw [h x (by simp), h y (by simp [hy])]
    simp

/-- Not all flags are the same. -/
theorem exists_both {β : Type} {f : β → Bool} {g : List β} (h : allEqual (g.map f) = false) :
    (∃ i ∈ g, f i = true) ∧ ∃ i ∈ g, f i = false := by
  constructor
  · by_contra hn
    push Not at hn
    rw [allEqual_const (c := false)] at h
    · cases h
    · intro x hx
      obtain ⟨i, hi, rfl⟩ := List.mem_map.1 hx
      simpa using hn i hi
  · by_contra hn
    push Not at hn
    rw [allEqual_const (c := true)] at h
    · cases h
    · intro x hx
      obtain ⟨i, hi, rfl⟩ := List.mem_map.1 hx
      simpa using hn i hi

section
variable {h : Heap Unit} {log : List (Ev × ℕ)}

/-- the finished events -/
abbrev finished (log : List (Ev × ℕ)) : List ℕ := log.filterMap fun (e, i) => if Heap.isLeft e then none else some i

theorem Pieces.finished_lt (P : Pieces a b h log) {i : ℕ} (hi : i ∈ finished log) : i < h.count := by
  obtain ⟨x, hx, e⟩ := List.mem_filterMap.1 hi
  obtain ⟨e', j⟩ := x
  dsimp only at e
  split at e
  · cases e
  · injection e with e
    subst e
    exact (P.log _ hx).2

/-- Every selected segment is a part of an operand. -/
theorem Pieces.select (P : Pieces a b h log) {keep : List Bool → Bool} {c : Segment} (hc : c ∈ selectSegments keep h (finished log)) :
    PartOf c (a ++ b) ∧ ∀ v, c.IsEnd v → Vertex (a ++ b) v := by
  obtain ⟨g, n, hg, -⟩ := selectSegments_run hc
  obtain ⟨i, hi⟩ := List.exists_mem_of_ne_nil g n
  obtain ⟨hF, rfl⟩ := hg i hi
  have lt := P.finished_lt hF
  constructor
  · cases hf : h.first i with
    | true => obtain ⟨t, ht, hp⟩ := P.first i lt hf; exact ⟨t, by simp [ht], hp⟩
    | false => obtain ⟨t, ht, hp⟩ := P.second i lt hf; exact ⟨t, by simp [ht], hp⟩
  · rintro v (rfl | rfl)
    exacts [(P.vert i lt).1, (P.vert i lt).2]

theorem Pieces.select_first (P : Pieces a b h log) {c : Segment}
    (hc : c ∈ selectSegments (fun fs => fs.all fun f => f) h (finished log)) : PartOf c a := by
  obtain ⟨g, n, hg, hk⟩ := selectSegments_run hc
  obtain ⟨i, hi⟩ := List.exists_mem_of_ne_nil g n
  obtain ⟨hF, rfl⟩ := hg i hi
  rw [List.all_eq_true] at hk
  exact P.first i (P.finished_lt hF) (hk _ (List.mem_map_of_mem hi))

theorem Pieces.select_both (P : Pieces a b h log) {c : Segment}
    (hc : c ∈ selectSegments (fun fs => !allEqual fs) h (finished log)) : PartOf c a ∧ PartOf c b := by
  obtain ⟨g, n, hg, hk⟩ := selectSegments_run hc
  obtain ⟨⟨i, hi, fi⟩, j, hj, fj⟩ := exists_both (f := h.first) (g := g) (by simpa using hk)
  obtain ⟨hF, e⟩ := hg i hi
  obtain ⟨hF', e'⟩ := hg j hj
  have h1 := P.first i (P.finished_lt hF) fi
  have h2 := P.second j (P.finished_lt hF') fj
  rw [e] at h1
  rw [e'] at h2
  exact ⟨h1, h2⟩

end

theorem partOf_pts {l c : List Segment} (h : ∀ s ∈ c, PartOf s l) : segsPts c ⊆ segsPts l := by
  rintro q ⟨s, hs, hq⟩
  obtain ⟨t, ht, hp⟩ := h s hs
  exact ⟨t, ht, hp hq⟩

end Clipping.TreeSweep

namespace Clipping.TreeSweep

open Sweep Nary

variable {α : Type} {a b : List Segment} {h : Heap Unit} {log : List (Ev × ℕ)}

theorem common_pair {l : List Ev} {c : Segment} (hc : c ∈ (commonSegments h l).2) :
    ∃ e ∈ l, ∃ f ∈ l, Heap.isLeft e = true ∧ h.evFirst e ≠ h.evFirst f ∧ evEndpoints h e = c ∧ evEndpoints h f = c := by
  induction l with
  | nil => simp [commonSegments] at hc
  | cons e l ih =>
    cases l with
    | nil => simp [commonSegments] at hc
    | cons f rest =>
      have old : c ∈ (commonSegments h (f :: rest)).2 → ∃ e' ∈ e :: f :: rest, ∃ f' ∈ e :: f :: rest, Heap.isLeft e' = true ∧
          h.evFirst e' ≠ h.evFirst f' ∧ evEndpoints h e' = c ∧ evEndpoints h f' = c := by
        intro hc
        obtain ⟨e', he, f', hf, r⟩ := ih hc
        exact ⟨e', List.mem_cons_of_mem _ he, f', List.mem_cons_of_mem _ hf, r⟩
      rw [common_cons] at hc
      split_ifs at hc with h1 h2
      · dsimp only at hc
        rcases List.mem_cons.1 hc with rfl | hc
        · exact ⟨e, by simp, f, by simp, h2, h1.1, rfl, h1.2.symm⟩
        · exact old hc
      · exact old hc
      · exact old hc

theorem Pieces.primary_lt {h : Heap α} (P : Pieces a b h log) {e : Ev} (he : EvOk h e) : h.primary e < h.count := by
  cases e with
  | left i => exact he
  | right j => exact P.ok.llt j he

theorem Pieces.start_mem {h : Heap α} (P : Pieces a b h log) {e : Ev} (he : EvOk h e) : h.evStart e ∈ (h.segment (h.primary e)).pts := by
  cases e with
  | left i => exact (h.segment i).start_mem
  | right j =>
    have : h.evStart (.right j) = (h.segment (h.primary (.right j))).stop := by
      show _ = (h.rights (h.lefts (h.rights j).left).right).start
      rw [P.ok.rl j he]
      rfl
    rw [this]
    exact Segment.stop_mem _

/-- Events with the end points of a left event. -/
theorem Pieces.endpoints (P : Pieces a b h log) {e f : Ev} (he : EvOk h e) (hf : EvOk h f) (hl : Heap.isLeft e = true)
    (heq : evEndpoints h f = evEndpoints h e) : h.segment (h.primary f) = evEndpoints h e := by
  cases e with
  | right j => cases hl
  | left i =>
    cases f with
    | left k => exact heq
    | right j =>
      exfalso
      have h1 : h.evStart (.right j) = h.evStart (.left i) := congrArg Segment.start heq
      have h2 : h.evStop (.right j) = h.evStop (.left i) := congrArg Segment.stop heq
      have l1 := P.lt i he
      have l2 := P.lt _ (P.ok.llt j hf)
      have e1 : h.stop (h.rights j).left = h.evStart (.right j) := by
        show (h.rights (h.lefts (h.rights j).left).right).start = _
        rw [P.ok.rl j hf]
        rfl
      have e2 : h.start (h.rights j).left = h.evStop (.right j) := rfl
      rw [e1, e2, h1, h2] at l2
      exact absurd (l1.trans l2) (lt_irrefl _)

/-- Points and segments of a complete intersection belong to both operands. -/
theorem Pieces.common (P : Pieces a b h log) {l : List Ev} (hl : ∀ e ∈ l, EvOk h e) :
    (∀ p ∈ (commonParts h (groupRuns h.evStart l)).1, p ∈ segsPts a ∩ segsPts b) ∧
    ∀ c ∈ (commonParts h (groupRuns h.evStart l)).2, PartOf c a ∧ PartOf c b := by
  have part : ∀ e, EvOk h e → (h.evFirst e = true → PartOf (h.segment (h.primary e)) a) ∧
      (h.evFirst e = false → PartOf (h.segment (h.primary e)) b) := fun e he =>
    ⟨P.first _ (P.primary_lt he), P.second _ (P.primary_lt he)⟩
  constructor
  · intro p hp
    rw [parts_points] at hp
    obtain ⟨⟨k, g⟩, hx, rfl, hne, -⟩ := hp
    obtain ⟨-, hg⟩ := groupRuns_run hx
    obtain ⟨⟨e, he, fe⟩, f, hf, ff⟩ := exists_both hne
    obtain ⟨t, ht, h1⟩ := (part e (hl e (hg e he).1)).1 fe
    obtain ⟨u, hu, h2⟩ := (part f (hl f (hg f hf).1)).2 ff
    have m1 := P.start_mem (hl e (hg e he).1)
    have m2 := P.start_mem (hl f (hg f hf).1)
    rw [(hg e he).2] at m1
    rw [(hg f hf).2] at m2
    exact ⟨⟨t, ht, h1 m1⟩, u, hu, h2 m2⟩
  · intro c hc
    rw [parts_segments] at hc
    obtain ⟨⟨k, g⟩, hx, -, hc⟩ := hc
    obtain ⟨-, hg⟩ := groupRuns_run hx
    obtain ⟨e, he, f, hf, hle, hne, e1, e2⟩ := common_pair hc
    have ke := hl e (hg e he).1
    have kf := hl f (hg f hf).1
    have s1 : h.segment (h.primary e) = c := (P.endpoints ke ke hle rfl).trans e1
    have s2 : h.segment (h.primary f) = c := (P.endpoints ke kf hle (e2.trans e1.symm)).trans e1
    have pe := part e ke
    have pf := part f kf
    rw [s1] at pe
    rw [s2] at pf
    cases h1 : h.evFirst e with
    | true =>
      have h2 : h.evFirst f = false := by
        rw [h1] at hne
        simpa using hne.symm
      exact ⟨pe.1 h1, pf.2 h2⟩
    | false =>
      have h2 : h.evFirst f = true := by
        rw [h1] at hne
        simpa using hne.symm
      exact ⟨pf.1 h2, pe.2 h1⟩

end Clipping.TreeSweep

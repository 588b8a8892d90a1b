import Verif.Lemmas.TreeSweep.Marks
import Verif.Model.TreeShaped

/-!
# Every event is processed once

In a sweep over any edges, as the operations on polygons run it.
-/

namespace Clipping.TreeSweep

open Sweep Nary

variable {α : Type} {O : Ops α}

/-- The number of an event. -/
def evNumber : Ev → ℕ
  | .left i => i
  | .right j => j

theorem evOk_iff {h : Heap α} {e : Ev} : EvOk h e ↔ evNumber e < h.count := by cases e <;> rfl

/-- The queue has been extended with new events. -/
def Ext (s₀ s : Store α) : Prop :=
  s₀.heap.count ≤ s.heap.count ∧ ∃ new, s.queue = s₀.queue ++ new ∧ new.Nodup ∧
    ∀ e ∈ new, s₀.heap.count ≤ evNumber e ∧ evNumber e < s.heap.count

theorem Ext.refl (s : Store α) : Ext s s := ⟨le_rfl, [], by simp, List.nodup_nil, by simp⟩

theorem ext_kept (s₀ : Store α) : Kept O (Ext s₀) where
  divide := by
    rintro s i p ⟨hc, new, hq, nd, hn⟩
    refine ⟨hc.trans (Nat.le_succ _), new ++ [.left s.heap.count, .right s.heap.count], ?_, ?_, ?_⟩
    · show s.queue ++ _ = _
      rw [hq, List.append_assoc]
    · rw [List.nodup_append]
      refine ⟨nd, by simp, ?_⟩
      intro e he f hf
      rintro rfl
      have := (hn e he).2
      simp only [List.mem_cons, List.not_mem_nil, or_false] at hf
      rcases hf with rfl | rfl <;> exact absurd this (lt_irrefl _)
    · intro e he
      rcases List.mem_append.1 he with he | he
      · exact ⟨(hn e he).1, (hn e he).2.trans (Nat.lt_succ_self _)⟩
      · simp only [List.mem_cons, List.not_mem_nil, or_false] at he
        rcases he with rfl | rfl <;> exact ⟨hc, Nat.lt_succ_self _⟩
  overlap := by
    rintro s i j b ⟨hc, new, hq, nd, hn⟩
    exact ⟨hc, new, hq, nd, hn⟩
  compute := by
    rintro s i b ⟨hc, new, hq, nd, hn⟩
    exact ⟨hc, new, hq, nd, hn⟩

/-- No event is twice among those in the queue and those which have been processed. -/
structure Once (s : Store α) (log : List Ev) : Prop where
  nodup : (s.queue ++ log).Nodup
  ok : ∀ e ∈ log, EvOk s.heap e

theorem Once.step {s s' : Store α} {log : List Ev} (N : Once s log) (hq : ∀ e ∈ s.queue, EvOk s.heap e) {e : Ev} (he : e ∈ s.queue)
    (x : Ext { s with queue := s.queue.erase e } s') : Once s' (e :: log) := by
  obtain ⟨hc, new, hq', nd, hn⟩ := x
  dsimp only at hc hq' hn
  have p : (s'.queue ++ e :: log).Perm ((s.queue ++ log) ++ new) := by
    rw [hq']
    have h1 : (s.queue.erase e ++ new ++ e :: log).Perm (e :: (s.queue.erase e ++ new ++ log)) := List.perm_middle
    refine h1.trans ?_
    have h2 : (e :: (s.queue.erase e ++ (new ++ log))).Perm (s.queue ++ (new ++ log)) :=
      (List.perm_cons_erase he).symm.append_right (new ++ log)
    rw [List.append_assoc]
    refine h2.trans ?_
    rw [List.append_assoc]
    exact List.Perm.append_left _ List.perm_append_comm
  refine ⟨p.nodup_iff.2 ?_, ?_⟩
  · rw [List.nodup_append]
    refine ⟨N.nodup, nd, ?_⟩
    rintro f hf g hg rfl
    have h1 := (hn f hg).1
    have h2 : EvOk s.heap f := by
      rcases List.mem_append.1 hf with hf | hf
      exacts [hq f hf, N.ok f hf]
    rw [evOk_iff] at h2
    omega
  · intro f hf
    rcases List.mem_cons.1 hf with rfl | hf
    · exact evOk_mono hc (hq f he)
    · exact evOk_mono hc (N.ok f hf)

variable {ε : ℚ} {Pt : List Point} {l : List (Segment × Bool)}

/-- One step of the loop. -/
theorem step_good {B : Balancing} {tb : TieBreak} {s : TreeState α} {log : List Ev} (S : SoundState ε Pt l s) (N : Once s.store log)
    {e : Ev} {q : List Ev} (hpop : pop tb s.store = some (e, q)) :
    treeProcess B O { s with store := { s.store with queue := q } } e = .error .sameOperandOverlap ∨
    ∃ s', treeProcess B O { s with store := { s.store with queue := q } } e = .ok s' ∧ SoundState ε Pt l s' ∧
      Once s'.store (e :: log) ∧ potential ε Pt s'.store < potential ε Pt s.store := by
  obtain ⟨he, rfl, -⟩ := (pop_spec tb S.store.ok S.store.pts S.store.pr S.store.que).2 e q hpop
  have S' : SoundState ε Pt l { s with store := { s.store with queue := s.store.queue.erase e } } :=
    ⟨⟨S.store.ok, S.store.pts, S.store.pr, fun f hf => S.store.que f (List.mem_of_mem_erase hf),
      S.store.par⟩, S.tree⟩
  have hp' : potential ε Pt ({ s.store with queue := s.store.queue.erase e } : Store α) <
      potential ε Pt s.store := by
    unfold potential
    have := List.length_erase_of_mem he
    have := List.length_pos_of_mem he
    dsimp only
    omega
  have heo := S.store.que e he
  have key : GoodState ε Pt l { s with store := { s.store with queue := s.store.queue.erase e } }
      (treeProcess B O { s with store := { s.store with queue := s.store.queue.erase e } } e) := by
    cases e with
    | left i => exact treeLeft_good S' heo
    | right j => exact treeRight_good S'
  rcases key with h | ⟨s₁, h, S₁, p₁, c₁⟩
  · exact Or.inl h
  · exact Or.inr ⟨s₁, h, S₁, N.step S.store.que he ((ext_kept _).process (Ext.refl _) h), p₁.trans_lt hp'⟩

end Clipping.TreeSweep

namespace Clipping.TreeSweep

open Sweep Nary

variable {ε : ℚ} {Pt : List Point} {l : List (Segment × Bool)} {O : Ops ShapedData}

theorem treeShapedLoop_good {B : Balancing} {tb : TieBreak} {stop : Point → Bool} : ∀ (fuel : ℕ) (s : TreeState ShapedData)
    (log : List (Ev × Bool)), SoundState ε Pt l s → Once s.store (log.map Prod.fst) → potential ε Pt s.store < fuel →
    treeShapedLoop B O tb stop fuel s log = .error .sameOperandOverlap ∨
      ∃ s' log', treeShapedLoop B O tb stop fuel s log = .ok (s', log') ∧ SoundState ε Pt l s' ∧
        Once s'.store (log'.map Prod.fst) := by
  intro fuel
  induction fuel with
  | zero => intro s log _ _ h; exact absurd h (Nat.not_lt_zero _)
  | succ fuel ih =>
    intro s log S N hp
    have hr : Once s.store (log.reverse.map Prod.fst) := by
      rw [List.map_reverse]
      refine ⟨?_, fun e he => N.ok e (List.mem_reverse.1 he)⟩
      exact (List.Perm.append_left _ (List.reverse_perm _)).nodup_iff.2 N.nodup
    unfold treeShapedLoop
    cases hpop : pop tb s.store with
    | none => exact Or.inr ⟨s, _, rfl, S, hr⟩
    | some x =>
      obtain ⟨e, q⟩ := x
      dsimp only
      split
      · exact Or.inr ⟨s, _, rfl, S, hr⟩
      · rcases step_good (B := B) (O := O) S N hpop with h | ⟨s₁, h, S₁, N₁, p₁⟩
        · rw [h]; exact Or.inl rfl
        · rw [h]
          exact ih s₁ _ S₁ N₁ (by omega)

variable {a b : List Segment}

/-- What is known of the events of a sweep over any edges. -/
structure Processed (a b : List Segment) (h : Heap ShapedData) (events : List Ev) : Prop where
  pieces : Pieces a b h []
  nodup : events.Nodup
  ok : ∀ e ∈ events, EvOk h e

theorem processed_of {s : TreeState ShapedData} {log : List (Ev × Bool)} (pa : ∀ s ∈ a, s.Proper) (pb : ∀ s ∈ b, s.Proper)
    (S : SoundState ε (points (a ++ b)) (marked a b) s) (N : Once s.store (log.map Prod.fst)) :
    Processed a b s.store.heap (processedEvents log) := by
  have sub : (processedEvents log).Sublist (log.map Prod.fst) := List.filter_sublist.map _
  exact ⟨S.pieces pa pb (by intro x hx; cases hx), sub.nodup (List.nodup_append.1 N.nodup).2.1, fun e he => N.ok e (sub.subset he)⟩

theorem treeShapedSweep_good (B : Balancing) (tb : TieBreak) (stop : Point → Bool) (pa : ∀ s ∈ a, s.Proper) (pb : ∀ s ∈ b, s.Proper) :
    treeShapedSweep B O tb stop a b = .error .sameOperandOverlap ∨
      ∃ s log, treeShapedSweep B O tb stop a b = .ok (s, log) ∧ Processed a b s.store.heap (processedEvents log) := by
  obtain ⟨ε, S, hp⟩ := sound_init O.toPayload ⟨false, false, .none, false, none⟩ pa pb
  have f := fresh_init O.toPayload (⟨false, false, .none, false, none⟩ : ShapedData) a b
  rcases treeShapedLoop_good (O := O) (B := B) (tb := tb) (stop := stop) (sweepFuel (a.length + b.length))
    ⟨initStore O.toPayload _ a b, .nil⟩ [] ⟨S, by simp [RTree.inorder]⟩ ⟨by simpa using f.nodup, by simp⟩ hp with h | ⟨s, log, h, S', N⟩
  · exact Or.inl h
  · exact Or.inr ⟨s, log, h, processed_of pa pb S' N⟩

theorem treeShapedSweepFirst_good (B : Balancing) (tb : TieBreak) (stop : Point → Bool) (pa : ∀ s ∈ a, s.Proper)
    (pb : ∀ s ∈ b, s.Proper) (ne : a ++ b ≠ []) :
    treeShapedSweepFirst B O tb stop a b = .error .sameOperandOverlap ∨
      ∃ s log, treeShapedSweepFirst B O tb stop a b = .ok (s, log) ∧ Processed a b s.store.heap (processedEvents log) := by
  obtain ⟨ε, S, hp⟩ := sound_init O.toPayload ⟨false, false, .none, false, none⟩ pa pb
  have f := fresh_init O.toPayload (⟨false, false, .none, false, none⟩ : ShapedData) a b
  unfold treeShapedSweepFirst treeShapedInit
  dsimp only
  change Sound ε _ _ (register O.toPayload (register O.toPayload ⟨Heap.nothing ⟨false, false, .none, false, none⟩, []⟩ a true) b false) at S
  change potential ε _ (register O.toPayload (register O.toPayload ⟨Heap.nothing ⟨false, false, .none, false, none⟩, []⟩ a true) b false) < _
    at hp
  change Fresh (register O.toPayload (register O.toPayload ⟨Heap.nothing ⟨false, false, .none, false, none⟩, []⟩ a true) b false) _ at f
  generalize register O.toPayload (register O.toPayload ⟨Heap.nothing ⟨false, false, .none, false, none⟩, []⟩ a true) b false = s₀ at *
  cases hpop : pop tb s₀ with
  | none =>
    have := (pop_spec tb S.ok S.pts S.pr S.que).1.1 hpop
    have h2 := f.length
    rw [this] at h2
    exfalso
    apply ne
    apply List.eq_nil_of_length_eq_zero
    simp [marked] at h2
    simp [h2]
  | some x =>
    obtain ⟨e, q⟩ := x
    dsimp only
    have S0 : SoundState ε (points (a ++ b)) (marked a b) ⟨s₀, .nil⟩ := ⟨S, by simp [RTree.inorder]⟩
    rcases step_good (B := B) (O := O) (log := []) S0 ⟨by simpa using f.nodup, by simp⟩ hpop with h | ⟨s₁, h, S₁, N₁, p₁⟩
    · rw [h]; exact Or.inl rfl
    · rw [h]
      dsimp only at p₁ ⊢
      rcases treeShapedLoop_good (O := O) (B := B) (tb := tb) (stop := stop) (sweepFuel (a.length + b.length) - 1) s₁
        [(e, !isSkipped ⟨s₀, .nil⟩ e)] S₁ N₁ (by omega) with h | ⟨s, log, h, S', N⟩
      · exact Or.inl h
      · exact Or.inr ⟨s, log, h, processed_of pa pb S' N⟩

end Clipping.TreeSweep

import Verif.Model.TreeShaped
import Verif.Lemmas.Shaped.Sorted

/-!
# Insertion sort of any events

It is one of the ways of sorting, although the comparison is no order on some events.
-/

namespace Clipping.TreeSweep

theorem insert_class {β : Type} {r : β → β → Prop} [DecidableRel r] {R : β → β → Prop} (trans : ∀ a b c, R a b → R b c → R a c)
    (pos : ∀ a b, r a b → R a b) (neg : ∀ a b, ¬ r a b → R b a) (x : β) : ∀ {l : List β}, l.Pairwise R → (l.orderedInsert r x).Pairwise R := by
  intro l
  induction l with
  | nil => intro _; simp
  | cons y l ih =>
    intro h
    rw [List.pairwise_cons] at h
    rw [List.orderedInsert_cons]
    split
    · rename_i hr
      refine List.pairwise_cons.2 ⟨?_, List.pairwise_cons.2 h⟩
      intro z hz
      rcases List.mem_cons.1 hz with rfl | hz
      · exact pos _ _ hr
      · exact trans _ _ _ (pos _ _ hr) (h.1 z hz)
    · rename_i hr
      refine List.pairwise_cons.2 ⟨?_, ih h.2⟩
      intro z hz
      rcases (List.mem_orderedInsert r).1 hz with rfl | hz
      · exact neg _ _ hr
      · exact h.1 z hz

theorem insertionSort_class {β : Type} {r : β → β → Prop} [DecidableRel r] {R : β → β → Prop} (trans : ∀ a b c, R a b → R b c → R a c)
    (pos : ∀ a b, r a b → R a b) (neg : ∀ a b, ¬ r a b → R b a) (l : List β) : (l.insertionSort r).Pairwise R := by
  induction l with
  | nil => exact List.Pairwise.nil
  | cons x l ih => exact insert_class trans pos neg x ih

/-- the start and the side of an event are not greater -/
def ClassLe (h : Heap ShapedData) (e f : Ev) : Prop :=
  h.evStart e < h.evStart f ∨ h.evStart e = h.evStart f ∧ (Heap.isLeft e = true → Heap.isLeft f = true)

theorem ClassLe.trans {h : Heap ShapedData} {e f g : Ev} (a : ClassLe h e f) (b : ClassLe h f g) : ClassLe h e g := by
  unfold ClassLe at *
  rcases a with a | ⟨a, a'⟩ <;> rcases b with b | ⟨b, b'⟩
  · exact Or.inl (a.trans b)
  · exact Or.inl (b ▸ a)
  · exact Or.inl (a ▸ b)
  · exact Or.inr ⟨a.trans b, fun k => b' (a' k)⟩

theorem notAfter_class {h : Heap ShapedData} {e f : Ev} (hq : NotAfter h e f) : ClassLe h e f := by
  rcases hq with hq | ⟨hs, hq⟩
  · exact Or.inl hq
  · refine Or.inr ⟨hs, ?_⟩
    rcases hq with ⟨h1, h2⟩ | ⟨h1, h2, -⟩ | ⟨h1, h2, -⟩
    · exact fun _ => h2
    · rw [h1]; exact fun k => by cases k
    · exact fun _ => h2

theorem class_of_after {h : Heap ShapedData} {e f : Ev} (hq : ¬ NotAfter h e f) : ClassLe h f e := by
  unfold ClassLe
  by_cases hs : h.evStart e = h.evStart f
  · refine Or.inr ⟨hs.symm, ?_⟩
    intro hl
    by_contra hn
    exact hq (Or.inr ⟨hs, Or.inl ⟨by simpa using hn, hl⟩⟩)
  · rcases lt_or_gt_of_ne hs with k | k
    · exact absurd (Or.inl k) hq
    · exact Or.inl k

theorem sortEvents_class (h : Heap ShapedData) (l : List Ev) : (sortEvents h l).Pairwise (ClassLe h) := by
  unfold sortEvents
  apply insertionSort_class
  · intro e f g
    exact ClassLe.trans
  · intro e f hq
    exact notAfter_class (queueLt_false_iff.1 hq)
  · intro e f hq
    exact class_of_after fun k => hq (queueLt_false_iff.2 k)

/-- Insertion sort is a way of sorting. -/
def insertionEventSort : EventSort where
  sort := sortEvents
  perm _ _ := List.perm_insertionSort _ _
  start h l := (sortEvents_class h l).imp fun c => c.elim (fun k => k.le) fun k => k.1.le
  side h l := (sortEvents_class h l).imp fun c hs => c.elim (fun k => absurd (hs ▸ k) (lt_irrefl _)) fun k => k.2
  order _ _ _ := rfl

end Clipping.TreeSweep

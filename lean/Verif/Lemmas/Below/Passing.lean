import Verif.Lemmas.Below.Cutting
import Verif.Lemmas.Below.Under

/-!
# Segments which start on a passing segment

A segment is touched if the segments which come from the left to its start pass through it on one line below, and no
other segment starts there below or on its line. These are the segments whose event below may be out of date.
-/

namespace Clipping.Sweep

/-- Segments which come from the left to the given point pass through it, all of them on the line of `j`. -/
structure Thru (Es : List Seg) (v y : ℚ) (j : Seg) : Prop where
  mem : j ∈ Es
  lo : j.a < v
  hi : v < j.b
  val : j.y v = y
  all : ∀ k ∈ Es, k.a < v → v ≤ k.b → k.y v = y → v < k.b ∧ Col k j

structure Touched (Es : List Seg) (s : Seg) : Prop where
  thru : ∃ j, Thru Es s.a (s.y s.a) j ∧ j.m < s.m
  least : ∀ k ∈ Es, k.a = s.a → s.m ≤ k.m
  alone : Es.Pairwise fun k l => ¬ (k.a = s.a ∧ k.m = s.m ∧ l.a = s.a ∧ l.m = s.m)

theorem Touched.congr {Es : List Seg} {s t : Seg} (h : Touched Es s) (hc : Col t s) (ha : t.a = s.a) : Touched Es t := by
  obtain ⟨⟨j, h1, h2⟩, h3, h4⟩ := h
  refine ⟨⟨j, ?_, by rw [hc.1]; exact h2⟩, by rw [ha, hc.1]; exact h3, by rw [ha, hc.1]; exact h4⟩
  rw [ha, hc.y]; exact h1

theorem Thru.perm {Es Es' : List Seg} (p : Es.Perm Es') {v y : ℚ} {j : Seg} (h : Thru Es v y j) : Thru Es' v y j :=
  ⟨p.mem_iff.1 h.mem, h.lo, h.hi, h.val, fun k hk => h.all k (p.mem_iff.2 hk)⟩

theorem Touched.perm {Es Es' : List Seg} (p : Es.Perm Es') {s : Seg} (h : Touched Es s) : Touched Es' s := by
  obtain ⟨⟨j, h1, h2⟩, h3, h4⟩ := h
  refine ⟨⟨j, h1.perm p, h2⟩, fun k hk => h3 k (p.mem_iff.2 hk), (p.pairwise_iff ?_).1 h4⟩
  intro a b h
  tauto

variable {α : Type} {O : Ops α} {ε : ℚ} {Pt : List Point} {Y : ℚ → ℚ} {L F L₀ F₀ : List ℕ} {p p₀ : ℚ}
  {Ex Ex₀ : ℕ → ℕ → Prop} {s₀ s : Store α}

/-- the segments of a heap without operands -/
def origs (ε : ℚ) (h : Heap α) : List Seg := (List.range h.count).map fun k => { absSeg ε h k with ff := true }

theorem mem_origs {h : Heap α} {k : ℕ} (hk : k < h.count) : { absSeg ε h k with ff := true } ∈ origs ε h :=
  List.mem_map.2 ⟨k, List.mem_range.2 hk, rfl⟩

theorem of_mem_origs {h : Heap α} {x : Seg} (hx : x ∈ origs ε h) :
    ∃ k < h.count, x = { absSeg ε h k with ff := true } := by
  obtain ⟨k, hk, rfl⟩ := List.mem_map.1 hx
  exact ⟨k, List.mem_range.1 hk, rfl⟩

/-- The segments of the store are parts of the ones of the first store, which keep their starts. -/
structure Orig (O : Ops α) (ε : ℚ) (h₀ h : Heap α) : Prop where
  count : h₀.count ≤ h.count
  abs : ∀ k < h₀.count, Col (absSeg ε h k) (absSeg ε h₀ k) ∧ (absSeg ε h k).ff = (absSeg ε h₀ k).ff ∧
    (absSeg ε h k).a = (absSeg ε h₀ k).a
  covers : Covers O h₀ h

theorem Orig.refl (h : Heap α) : Orig O ε h h := ⟨le_refl _, fun _ _ => ⟨Col.refl _, rfl, rfl⟩, Covers.refl _⟩

theorem Orig.step {s' : Store α} {L' F' M : List ℕ} {p' : ℚ} {Ex' : ℕ → ℕ → Prop} (R : Orig O ε s₀.heap s.heap)
    (S : St ε Pt Y s L F p Ex) (S' : St ε Pt Y s' L' F' p' Ex') (ev : Evolves O ε Pt M s s') :
    Orig O ε s₀.heap s'.heap := by
  refine ⟨R.count.trans ev.count, fun k hk => ?_, R.covers.trans ev.covers⟩
  obtain ⟨h1, h2, h3⟩ := R.abs k hk
  obtain ⟨g1, g2, g3, -⟩ := ev.abs S S' (hk.trans_le R.count)
  exact ⟨g1.trans h1, g2.trans h2, g3.trans h3⟩

section orig
variable (S₀ : St ε Pt Y s₀ L₀ F₀ p₀ Ex₀) (S : St ε Pt Y s L F p Ex) (R : Orig O ε s₀.heap s.heap)
include S₀ S R

theorem Orig.parent {i : ℕ} (hi : i < s.heap.count) : ∃ k < s₀.heap.count,
    Col (absSeg ε s.heap i) (absSeg ε s₀.heap k) ∧ (absSeg ε s.heap i).ff = (absSeg ε s₀.heap k).ff ∧
    (absSeg ε s₀.heap k).a ≤ (absSeg ε s.heap i).a ∧ (absSeg ε s.heap i).b ≤ (absSeg ε s₀.heap k).b := by
  obtain ⟨k, hk, part⟩ := R.covers.sub i hi
  exact ⟨k, hk, part.abs (S₀.inv'.proper k hk) (S.inv'.proper i hi)⟩

theorem Orig.tail {i : ℕ} (hi : i < s.heap.count) (hn : s₀.heap.count ≤ i) : ∃ k < s₀.heap.count,
    Col (absSeg ε s.heap i) (absSeg ε s₀.heap k) ∧ (absSeg ε s.heap i).ff = (absSeg ε s₀.heap k).ff ∧
    (absSeg ε s₀.heap k).a < (absSeg ε s.heap i).a ∧ (absSeg ε s.heap i).b ≤ (absSeg ε s₀.heap k).b := by
  obtain ⟨k, hk, h1, h2, h3, h4⟩ := R.parent S₀ S hi
  refine ⟨k, hk, h1, h2, lt_of_le_of_ne h3 fun h => ?_, h4⟩
  obtain ⟨g1, g2, g3⟩ := R.abs k hk
  have pk := S.inv'.proper k (hk.trans_le R.count)
  have pi := S.inv'.proper i hi
  rcases S.inv'.noOv i hi k (hk.trans_le R.count) (by omega) (h1.trans g1.symm) (h2.trans g2.symm) with h' | h' <;> linarith

theorem Orig.before {k : ℕ} (hk : k < s₀.heap.count) {c : ℚ} (h1 : (absSeg ε s₀.heap k).a < c)
    (h2 : c ≤ (absSeg ε s₀.heap k).b) : ∃ w < s.heap.count, Col (absSeg ε s.heap w) (absSeg ε s₀.heap k) ∧
    (absSeg ε s.heap w).ff = (absSeg ε s₀.heap k).ff ∧ (absSeg ε s.heap w).a < c ∧ c ≤ (absSeg ε s.heap w).b := by
  obtain ⟨w, hw, part, w1, w2⟩ := R.covers.before S₀.inv'.proper S.inv'.proper hk h1 h2
  obtain ⟨g1, g2, -, -⟩ := part.abs (S₀.inv'.proper k hk) (S.inv'.proper w hw)
  exact ⟨w, hw, g1, g2, w1, w2⟩

theorem Orig.after {k : ℕ} (hk : k < s₀.heap.count) {c : ℚ} (h1 : Act c (absSeg ε s₀.heap k)) :
    ∃ w < s.heap.count, Col (absSeg ε s.heap w) (absSeg ε s₀.heap k) ∧
    (absSeg ε s.heap w).ff = (absSeg ε s₀.heap k).ff ∧ Act c (absSeg ε s.heap w) := by
  obtain ⟨w, hw, part, w1⟩ := R.covers.after S₀.inv'.proper S.inv'.proper hk h1
  obtain ⟨g1, g2, -, -⟩ := part.abs (S₀.inv'.proper k hk) (S.inv'.proper w hw)
  exact ⟨w, hw, g1, g2, w1⟩

/-- What comes from the left to a point of passing segments is on their line. -/
theorem Thru.col {v y : ℚ} {j : Seg} (T : Thru (origs ε s₀.heap) v y j) {i : ℕ} (hi : i < s.heap.count)
    (h1 : (absSeg ε s.heap i).a < v) (h2 : v ≤ (absSeg ε s.heap i).b) (hy : (absSeg ε s.heap i).y v = y) :
    Col (absSeg ε s.heap i) j := by
  obtain ⟨k, hk, g1, -, g3, g4⟩ := R.parent S₀ S hi
  exact g1.trans (T.all _ (mem_origs hk) (by dsimp only; linarith) (by dsimp only; linarith) ((g1.y v).symm.trans hy)).2

theorem Touched.orig {i : ℕ} (hi : i < s.heap.count) (T : Touched (origs ε s₀.heap) (absSeg ε s.heap i)) :
    i < s₀.heap.count := by
  by_contra hn
  obtain ⟨k, hk, g1, -, g3, g4⟩ := R.tail S₀ S hi (not_lt.1 hn)
  obtain ⟨j, h1, h2⟩ := T.thru
  have pi := S.inv'.proper i hi
  have := (h1.all _ (mem_origs hk) g3 (by dsimp only; linarith) (g1.y _).symm).2
  have e : (absSeg ε s₀.heap k).m = j.m := this.1
  have := g1.1
  linarith

theorem Touched.no_hot {i : ℕ} (hi : i < s.heap.count) (T : Touched (origs ε s₀.heap) (absSeg ε s.heap i)) {k : ℕ}
    (hk : k < s.heap.count) (hne : k ≠ i) : ¬ Hot ε s.heap k i := by
  intro hh
  have hi0 := T.orig S₀ S R hi
  have hk0 := (T.congr hh.1 hh.2).orig S₀ S R hk
  obtain ⟨i1, -, i3⟩ := R.abs i hi0
  obtain ⟨k1, -, k3⟩ := R.abs k hk0
  have al := T.alone
  unfold origs at al
  rw [List.pairwise_map] at al
  have sy : Std.Symm fun a b : ℕ => ¬ ((absSeg ε s₀.heap a).a = (absSeg ε s.heap i).a ∧
      (absSeg ε s₀.heap a).m = (absSeg ε s.heap i).m ∧ (absSeg ε s₀.heap b).a = (absSeg ε s.heap i).a ∧
      (absSeg ε s₀.heap b).m = (absSeg ε s.heap i).m) := ⟨fun a b h => by tauto⟩
  refine al.forall (List.mem_range.2 hk0) (List.mem_range.2 hi0) hne ⟨?_, ?_, ?_, ?_⟩
  · rw [← k3]; exact hh.2
  · rw [← k1.1]; exact hh.1.1
  · exact i3.symm
  · exact i1.1.symm

theorem Touched.not_lowest {i : ℕ} (_hi : i < s.heap.count) (T : Touched (origs ε s₀.heap) (absSeg ε s.heap i)) :
    ¬ Lowest (absSeg ε s.heap) s.heap.count i := by
  intro hl
  obtain ⟨j, h1, h2⟩ := T.thru
  obtain ⟨k, hk, rfl⟩ := of_mem_origs h1.mem
  obtain ⟨w, hw, g1, -, g2⟩ := R.after S₀ S hk (c := (absSeg ε s.heap i).a) ⟨h1.lo.le, h1.hi⟩
  refine hl w hw g2 (Or.inr ⟨(g1.y _).trans h1.val, Or.inl ?_⟩)
  rw [g1.1]; exact h2

end orig

end Clipping.Sweep

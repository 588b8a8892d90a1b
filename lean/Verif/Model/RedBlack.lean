import Mathlib.Data.List.InsertIdx

/-!
# Search trees with colours

The n-ary sweep line (core/sweep_line.py:74-101) may have different events with the same key, and
events the order of which has changed since they were added.  What a search finds then depends on the
shape of the tree, so here the tree itself is modelled.  `dendroid.red_black` is not a part of the
repository: how it rebalances is a parameter (`Balancing`), about which only the order of the values is
assumed.  `redBlack` is the textbook algorithm.
-/

namespace Clipping

/-- Binary trees of events with colours. -/
inductive RTree where
  | nil
  | node (black : Bool) (left : RTree) (value : ℕ) (right : RTree)
deriving DecidableEq, Repr

namespace RTree

/-- Values in order. -/
def inorder : RTree → List ℕ
  | nil => []
  | node _ l k r => l.inorder ++ k :: r.inorder

/-- number of values -/
def size : RTree → ℕ
  | nil => 0
  | node _ l _ r => l.size + 1 + r.size

/-- Search for a value with the same key, from the root down: its place in order. -/
def search (lt : ℕ → ℕ → Bool) (e : ℕ) : RTree → Option ℕ
  | nil => none
  | node _ l k r =>
    if lt e k then l.search lt e
    else if lt k e then (r.search lt e).map (· + (l.size + 1))
    else some l.size

/-- The place a value is added at by a search which finds nothing. -/
def place (lt : ℕ → ℕ → Bool) (e : ℕ) : RTree → ℕ
  | nil => 0
  | node _ l k r => if lt e k then l.place lt e else l.size + 1 + r.place lt e

/-- is red -/
def isRed : RTree → Bool
  | node false _ _ _ => true
  | _ => false

/-- make black -/
def blacken : RTree → RTree
  | node _ l k r => node true l k r
  | nil => nil

/-- Textbook repair of a red node with a red parent on the left, seen from the grandparent. -/
def fixLeft : RTree → ℕ → RTree → RTree
  | node false (node false a x b) y c, z, d =>
    if d.isRed then node false (node true (node false a x b) y c) z d.blacken
    else node true (node false a x b) y (node false c z d)
  | node false a x (node false b y c), z, d =>
    if d.isRed then node false (node true a x (node false b y c)) z d.blacken
    else node true (node false a x b) y (node false c z d)
  | l, z, d => node true l z d

/-- Textbook repair of a red node with a red parent on the right, seen from the grandparent. -/
def fixRight : RTree → ℕ → RTree → RTree
  | a, x, node false b y (node false c z d) =>
    if a.isRed then node false a.blacken x (node true b y (node false c z d))
    else node true (node false a x b) y (node false c z d)
  | a, x, node false (node false b y c) z d =>
    if a.isRed then node false a.blacken x (node true (node false b y c) z d)
    else node true (node false a x b) y (node false c z d)
  | a, x, r => node true a x r

/-- Insertion at a place, before making the root black. -/
def ins (v : ℕ) : ℕ → RTree → RTree
  | _, nil => node false nil v nil
  | i, node c l k r =>
    if i ≤ l.size then
      if c then fixLeft (ins v i l) k r else node c (ins v i l) k r
    else
      if c then fixRight l k (ins v (i - (l.size + 1)) r) else node c l k (ins v (i - (l.size + 1)) r)

/-- Textbook repair when a black node is missing on the left and the sibling is black. -/
def fillLeft' (c : Bool) (l : RTree) (k : ℕ) : RTree → RTree × Bool
  | node _ a x (node false b y d) => (node c (node true l k a) x (node true b y d), false)
  | node _ (node false a x b) y d => (node c (node true l k a) x (node true b y d), false)
  | node _ a x b => (node true l k (node false a x b), c)
  | nil => (node true l k nil, c)

/-- Textbook repair when a black node is missing on the left. -/
def fillLeft (c : Bool) (l : RTree) (k : ℕ) : RTree → RTree × Bool
  | node false a x b =>
    let p := fillLeft' false l k a
    (node true p.1 x b, p.2)
  | r => fillLeft' c l k r

/-- Textbook repair when a black node is missing on the right and the sibling is black. -/
def fillRight' (c : Bool) (k : ℕ) (r : RTree) : RTree → RTree × Bool
  | node _ (node false a x b) y d => (node c (node true a x b) y (node true d k r), false)
  | node _ a x (node false b y d) => (node c (node true a x b) y (node true d k r), false)
  | node _ a x b => (node true (node false a x b) k r, c)
  | nil => (node true nil k r, c)

/-- Textbook repair when a black node is missing on the right. -/
def fillRight (c : Bool) (k : ℕ) (r : RTree) : RTree → RTree × Bool
  | node false a x b =>
    let p := fillRight' false k r b
    (node true a x p.1, p.2)
  | l => fillRight' c k r l

/-- A node with one child is replaced by it; the mark tells whether a black node is missing. -/
def splice (c : Bool) (t : RTree) : RTree × Bool :=
  if c then (if t.isRed then (t.blacken, false) else (t, true)) else (t, false)

/-- Removal of the first value. -/
def popMin : RTree → Option (ℕ × (RTree × Bool))
  | nil => none
  | node c l k r =>
    match l.popMin with
    | none => some (k, splice c r)
    | some (m, l', true) => some (m, fillLeft c l' k r)
    | some (m, l', false) => some (m, node c l' k r, false)

/-- Removal of the value at a place; the mark tells whether a black node is missing. -/
def del : ℕ → RTree → RTree × Bool
  | _, nil => (nil, false)
  | i, node c l k r =>
    if i < l.size then
      match l.del i with
      | (l', true) => fillLeft c l' k r
      | (l', false) => (node c l' k r, false)
    else if i = l.size then
      match r.popMin with
      | none => splice c l
      | some (m, r', deficient) =>
        if l = nil then splice c r
        else if deficient then fillRight c m r' l else (node c l m r', false)
    else
      match r.del (i - (l.size + 1)) with
      | (r', true) => fillRight c k r' l
      | (r', false) => (node c l k r', false)

end RTree

/-- How values are added to and removed from the tree of `dendroid.red_black.set_`: nothing is assumed
but the order of the values. -/
structure Balancing where
  insert : RTree → ℕ → ℕ → RTree
  remove : RTree → ℕ → RTree
  inorder_insert : ∀ t i v, i ≤ t.size → (insert t i v).inorder = t.inorder.insertIdx i v
  inorder_remove : ∀ t i, i < t.size → (remove t i).inorder = t.inorder.eraseIdx i

namespace RTree

theorem length_inorder : ∀ t : RTree, t.inorder.length = t.size
  | nil => rfl
  | node _ l _ r => by
    simp only [inorder, size, List.length_append, List.length_cons, length_inorder l, length_inorder r]
    omega

theorem inorder_blacken (t : RTree) : t.blacken.inorder = t.inorder := by
  cases t <;> rfl

theorem inorder_fixLeft (l : RTree) (z : ℕ) (d : RTree) :
    (fixLeft l z d).inorder = l.inorder ++ z :: d.inorder := by
  unfold fixLeft
  split <;> try split
  all_goals simp [inorder, inorder_blacken]

theorem inorder_fixRight (l : RTree) (z : ℕ) (d : RTree) :
    (fixRight l z d).inorder = l.inorder ++ z :: d.inorder := by
  unfold fixRight
  split <;> try split
  all_goals simp [inorder, inorder_blacken]

theorem insertIdx_left (v : ℕ) : ∀ (a b : List ℕ) (i : ℕ), i ≤ a.length →
    (a ++ b).insertIdx i v = a.insertIdx i v ++ b := by
  intro a
  induction a with
  | nil => intro b i hi; simp only [List.length_nil, Nat.le_zero] at hi; subst hi; simp
  | cons x a ih =>
    intro b i hi
    cases i with
    | zero => simp
    | succ i =>
      simp only [List.cons_append, List.insertIdx_succ_cons]
      rw [ih b i (by simpa using hi)]

theorem insertIdx_right (v : ℕ) : ∀ (a b : List ℕ) (i : ℕ),
    (a ++ b).insertIdx (a.length + i) v = a ++ b.insertIdx i v := by
  intro a
  induction a with
  | nil => intro b i; simp
  | cons x a ih =>
    intro b i
    have e : (x :: a).length + i = (a.length + i) + 1 := by simp only [List.length_cons]; omega
    rw [e]
    simp only [List.cons_append, List.insertIdx_succ_cons]
    rw [ih b i]

theorem inorder_ins (v : ℕ) : ∀ (t : RTree) (i : ℕ), i ≤ t.size →
    (ins v i t).inorder = t.inorder.insertIdx i v := by
  intro t
  induction t with
  | nil => intro i hi; simp only [size, Nat.le_zero] at hi; subst hi; rfl
  | node c l k r ihl ihr =>
    intro i hi
    simp only [size] at hi
    simp only [ins]
    by_cases h : i ≤ l.size
    · rw [if_pos h]
      have e : (ins v i l).inorder ++ k :: r.inorder = (node c l k r).inorder.insertIdx i v := by
        rw [ihl i h]
        simp only [inorder]
        rw [insertIdx_left _ _ _ _ (by rw [length_inorder]; exact h)]
      split
      · rw [inorder_fixLeft, e]
      · exact e
    · rw [if_neg h]
      obtain ⟨j, rfl⟩ : ∃ j, i = l.size + 1 + j := ⟨i - (l.size + 1), by omega⟩
      have e : l.inorder ++ k :: (ins v (l.size + 1 + j - (l.size + 1)) r).inorder =
          (node c l k r).inorder.insertIdx (l.size + 1 + j) v := by
        rw [ihr _ (by omega)]
        simp only [inorder]
        have e1 : l.size + 1 + j - (l.size + 1) = j := by omega
        have e2 : l.size + 1 + j = l.inorder.length + (j + 1) := by rw [length_inorder]; omega
        rw [e1, e2, insertIdx_right]
        rfl
      split
      · rw [inorder_fixRight, e]
      · exact e

theorem inorder_fillLeft' (c : Bool) (l : RTree) (k : ℕ) (r : RTree) :
    (fillLeft' c l k r).1.inorder = l.inorder ++ k :: r.inorder := by
  unfold fillLeft'
  split <;> simp [inorder]

theorem inorder_fillLeft (c : Bool) (l : RTree) (k : ℕ) (r : RTree) :
    (fillLeft c l k r).1.inorder = l.inorder ++ k :: r.inorder := by
  unfold fillLeft
  split
  · simp [inorder, inorder_fillLeft']
  · exact inorder_fillLeft' _ _ _ _

theorem inorder_fillRight' (c : Bool) (k : ℕ) (r : RTree) (l : RTree) :
    (fillRight' c k r l).1.inorder = l.inorder ++ k :: r.inorder := by
  unfold fillRight'
  split <;> simp [inorder]

theorem inorder_fillRight (c : Bool) (k : ℕ) (r : RTree) (l : RTree) :
    (fillRight c k r l).1.inorder = l.inorder ++ k :: r.inorder := by
  unfold fillRight
  split
  · simp [inorder, inorder_fillRight']
  · exact inorder_fillRight' _ _ _ _

theorem inorder_splice (c : Bool) (t : RTree) : (splice c t).1.inorder = t.inorder := by
  unfold splice
  split
  · split
    · exact inorder_blacken t
    · rfl
  · rfl

theorem inorder_popMin : ∀ t : RTree, match t.popMin with
    | none => t = nil
    | some (m, t', _) => t.inorder = m :: t'.inorder := by
  intro t
  induction t with
  | nil => rfl
  | node c l k r ih _ =>
    simp only [popMin]
    cases h : l.popMin with
    | none =>
      rw [h] at ih
      simp only at ih
      subst ih
      simp [inorder, inorder_splice]
    | some p =>
      obtain ⟨m, l', d⟩ := p
      rw [h] at ih
      simp only at ih
      cases d with
      | false => simp [inorder, ih]
      | true => simp [inorder, ih, inorder_fillLeft]

theorem inorder_del : ∀ (t : RTree) (i : ℕ), i < t.size → (del i t).1.inorder = t.inorder.eraseIdx i := by
  intro t
  induction t with
  | nil => intro i hi; simp only [size] at hi; omega
  | node c l k r ihl ihr =>
    intro i hi
    simp only [size] at hi
    simp only [del]
    by_cases h1 : i < l.size
    · rw [if_pos h1]
      have e : (l.del i).1.inorder ++ k :: r.inorder = (node c l k r).inorder.eraseIdx i := by
        rw [ihl i h1]
        simp only [inorder]
        rw [List.eraseIdx_append_of_lt_length (by rw [length_inorder]; exact h1)]
      rw [← e]
      cases hd : l.del i with
      | mk l' d => cases d <;> simp [inorder, inorder_fillLeft]
    · rw [if_neg h1]
      by_cases h2 : i = l.size
      · rw [if_pos h2]
        have e : (node c l k r).inorder.eraseIdx i = l.inorder ++ r.inorder := by
          simp only [inorder]
          rw [List.eraseIdx_append_of_length_le (by rw [length_inorder]; omega), length_inorder, h2]
          simp
        rw [e]
        have pm := inorder_popMin r
        cases hp : r.popMin with
        | none =>
          rw [hp] at pm
          simp only at pm
          subst pm
          simp [inorder_splice, inorder]
        | some p =>
          obtain ⟨m, r', d⟩ := p
          rw [hp] at pm
          simp only at pm
          simp only
          split
          · rename_i hl; subst hl; simp [inorder_splice, inorder]
          · cases d <;> simp [inorder, inorder_fillRight, pm]
      · rw [if_neg h2]
        have e : l.inorder ++ k :: (r.del (i - (l.size + 1))).1.inorder =
            (node c l k r).inorder.eraseIdx i := by
          rw [ihr _ (by omega)]
          simp only [inorder]
          rw [List.eraseIdx_append_of_length_le (by rw [length_inorder]; omega), length_inorder]
          obtain ⟨j, rfl⟩ : ∃ j, i = l.size + 1 + j := ⟨i - (l.size + 1), by omega⟩
          have e1 : l.size + 1 + j - (l.size + 1) = j := by omega
          have e2 : l.size + 1 + j - l.size = j + 1 := by omega
          rw [e1, e2, List.eraseIdx_cons_succ]
        rw [← e]
        cases hd : r.del (i - (l.size + 1)) with
        | mk l' d => cases d <;> simp [inorder, inorder_fillRight]

end RTree

/-- Red-black trees of the textbooks. -/
def redBlack : Balancing where
  insert t i v := (RTree.ins v i t).blacken
  remove t i := (RTree.del i t).1.blacken
  inorder_insert t i v h := by rw [RTree.inorder_blacken, RTree.inorder_ins v t i h]
  inorder_remove t i h := by rw [RTree.inorder_blacken, RTree.inorder_del t i h]

end Clipping

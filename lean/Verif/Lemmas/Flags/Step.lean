import Verif.Lemmas.Flags.Left

/-!
# The sides recorded in events are parities
-/

namespace Clipping

namespace Sweep

/-- The moment a left event is put into the sweep line. -/
structure LeftGeo (Y : ℚ → ℚ) (A : ℕ → Seg) (n : ℕ) (L F : List ℕ) (p : ℚ) (t : ℕ) (l₁ l₂ : List ℕ) :
    Prop where
  inv : Inv Y A n L F p NoEx
  hne : ∀ i ∈ L, (A i).b ≠ p
  tn : t < n
  tL : t ∉ L
  tF : t ∉ F
  ta : (A t).a = p
  hL : L = l₁ ++ l₂
  lo : ∀ x ∈ l₁, Bel p (A x) (A t)
  hi : ∀ x ∈ l₂, Bel p (A t) (A x)
  /-- the other waiting segments which start here are above, or overlap this one -/
  q : ∀ k < n, k ∉ L → k ∉ F → (A k).a = p → Bel p (A k) (A t) →
    k ≠ t ∧ Col (A k) (A t) ∧ (A k).ff = true ∧ (A t).ff = false

namespace LeftGeo

variable {Y : ℚ → ℚ} {A : ℕ → Seg} {n : ℕ} {L F : List ℕ} {p : ℚ} {t : ℕ} {l₁ l₂ : List ℕ}
  (G : LeftGeo Y A n L F p t l₁ l₂)
include G

theorem notF {i : ℕ} (hi : i ∈ F) (ha : (A i).a = p) : False := by
  have h1 := G.inv.fin i hi
  have h2 := G.inv.proper i (G.inv.bound i (by simp [hi]))
  linarith

/-- An overlapping segment of the second operand which starts here is the next one above. -/
theorem above_adj {i : ℕ} (hi : i ∈ L ++ F) (hc : Col (A t) (A i)) (ha : (A i).a = p) (ht : (A t).ff = true)
    (hf : (A i).ff = false) : l₂.head? = some i := by
  have hiL : i ∈ L := by
    rcases List.mem_append.1 hi with h | h
    · exact h
    · exact absurd (G.notF h ha) id
  have hb : Bel p (A t) (A i) := Or.inr ⟨hc.y p, Or.inr ⟨hc.1, ht, hf⟩⟩
  have hi2 : i ∈ l₂ := by
    rw [G.hL] at hiL
    rcases List.mem_append.1 hiL with h | h
    · exact absurd (G.lo i h) hb.asymm
    · exact h
  cases l₂ with
  | nil => cases hi2
  | cons a l =>
    rcases List.mem_cons.1 hi2 with rfl | hi2
    · rfl
    · exfalso
      have pw := G.inv.belPair G.hne
      rw [G.hL] at pw
      have b1 : Bel p (A a) (A i) := (List.pairwise_cons.1 (List.pairwise_append.1 pw).2.1).1 i hi2
      have b2 : Bel p (A t) (A a) := G.hi a (by simp)
      have hy := hc.y p
      have hm := hc.1
      rcases b1 with b1 | ⟨b1, b1' | ⟨b3, b1', -⟩⟩ <;> rcases b2 with b2 | ⟨b2, b2' | ⟨b4, -, b2'⟩⟩ <;>
        first | linarith | (rw [b1'] at b2'; cases b2')

/-- An overlapping segment of the first operand which starts here is the next one below. -/
theorem below_adj {i : ℕ} (hi : i ∈ L ++ F) (hc : Col (A i) (A t)) (ha : (A i).a = p) (ht : (A t).ff = false)
    (hf : (A i).ff = true) : l₁.getLast? = some i := by
  have hiL : i ∈ L := by
    rcases List.mem_append.1 hi with h | h
    · exact h
    · exact absurd (G.notF h ha) id
  have hb : Bel p (A i) (A t) := Or.inr ⟨hc.y p, Or.inr ⟨hc.1, hf, ht⟩⟩
  have hi1 : i ∈ l₁ := by
    rw [G.hL] at hiL
    rcases List.mem_append.1 hiL with h | h
    · exact h
    · exact absurd (G.hi i h) hb.asymm
  rcases List.eq_nil_or_concat l₁ with rfl | ⟨l, b, rfl⟩
  · cases hi1
  · simp only [List.concat_eq_append, List.mem_append, List.mem_cons, List.not_mem_nil, or_false] at hi1
    rcases hi1 with hi1 | rfl
    · exfalso
      have pw := G.inv.belPair G.hne
      rw [G.hL] at pw
      have pw' := (List.pairwise_append.1 pw).1
      simp only [List.concat_eq_append] at pw'
      have b1 : Bel p (A i) (A b) := (List.pairwise_append.1 pw').2.2 i hi1 b (by simp)
      have b2 : Bel p (A b) (A t) := G.lo b (by simp)
      have hy := hc.y p
      have hm := hc.1
      rcases b1 with b1 | ⟨b1, b1' | ⟨b3, -, b1'⟩⟩ <;> rcases b2 with b2 | ⟨b2, b2' | ⟨b4, b2', -⟩⟩ <;>
        first | linarith | (rw [b1'] at b2'; cases b2')
    · simp

end LeftGeo

variable {α : Type} {ε : ℚ} {Pt : List Point} {Y : ℚ → ℚ} {s : Store α} {L F : List ℕ} {p : ℚ}

theorem lt_bel {p : ℚ} {s t : Seg} (hs : s.a ≤ p) (ht : t.a ≤ p) (h : s.a = p ∨ t.a = p) (hlt : Lt s t) : Bel p s t := by
  have hm : max s.a t.a = p := by
    rcases h with h | h
    · rw [max_eq_left (by linarith)]; exact h
    · rw [max_eq_right (by linarith)]; exact h
  rcases hlt with ⟨hc, h1, h2⟩ | ⟨-, h1 | ⟨h1, h2⟩⟩
  · exact Or.inr ⟨hc.y p, Or.inr ⟨hc.1, h1, h2⟩⟩
  · rw [hm] at h1; exact Or.inl h1
  · rw [hm] at h1; exact Or.inr ⟨h1, Or.inl h2⟩

/-- The next event is a left one. -/
theorem St.leftGeo (S : St ε Pt Y s L F p NoEx) {t : ℕ} (he : Ev.left t ∈ s.queue)
    (hmin : ∀ f ∈ s.queue, precedes s.heap f (.left t) = false) :
    ∃ l₁ l₂, lineAdd s.heap L t = l₁ ++ t :: l₂ ∧ lineContains s.heap L t = false ∧
      (∀ x ∈ l₁, lineEq s.heap t x = false) ∧
      LeftGeo Y (absSeg ε s.heap) s.heap.count L F (evX ε s.heap (.left t)) t l₁ l₂ ∧
      St ε Pt Y { s with queue := s.queue.erase (.left t) } (l₁ ++ t :: l₂) F (evX ε s.heap (.left t))
        (fun u v => (l₁.getLast? = some u ∧ v = t) ∨ (u = t ∧ l₂.head? = some v)) := by
  have I := S.inv'
  have r : Rep ε s.heap (absSeg ε s.heap) := fun i _ => rfl
  obtain ⟨n1, n2, n3, n4, -⟩ := S.next he hmin r I
  obtain ⟨t1, t2, t3, t4, t5⟩ := n4 t rfl
  have I' := I.advance' n1 n2 n3
  obtain ⟨hcon, l₁, l₂, hL, hadd, h1, h2⟩ := lineAdd_spec r I' t5 t1 t2 t4.symm
  have I'' := I'
  rw [hL] at I''
  have I3 := I''.insert (by rw [← hL]; exact t5) t1 (by rw [← hL]; exact t2) t3 t4.symm h1 h2
  refine ⟨l₁, l₂, hadd, hcon, line_eq_false r I3, ⟨I', t5, t1, t2, t3, t4.symm, hL, ?_, ?_, ?_⟩, S.ok, S.pts,
    ⟨?_, ?_, ?_⟩, _, r, I3⟩
  · intro x hx
    exact lt_bel (I'.act x (by rw [hL]; simp [hx])).1 t4.symm.le (Or.inr t4.symm) (h1 x hx)
  · intro x hx
    exact lt_bel t4.symm.le (I'.act x (by rw [hL]; simp [hx])).1 (Or.inl t4.symm) (h2 x hx)
  · intro k hk k1 k2 ka hb
    have hkt : k ≠ t := by
      rintro rfl
      exact hb.irrefl
    have hmem : Ev.left k ∈ s.queue := (S.queue.left k).2 ⟨hk, k1, k2⟩
    have hp : ¬ _ := fun hh => by
      have := (precedes_iff S.ok S.pts I.proper (S.queue.evOk _ he) (S.queue.evOk _ hmem)).2 hh
      rw [hmin _ hmem] at this; cases this
    have xk : evX ε s.heap (.left k) = evX ε s.heap (.left t) := ka
    have hm : (absSeg ε s.heap t).m ≤ (absSeg ε s.heap k).m := by
      by_contra hc
      push Not at hc
      exact hp (Or.inr ⟨xk, Or.inr ⟨rfl, Or.inl hc⟩⟩)
    have yk : (absSeg ε s.heap k).y (evX ε s.heap (.left t)) = (absSeg ε s.heap t).y (evX ε s.heap (.left t)) := by
      have e1 := (I.endsY k hk).1
      have e2 := (I.endsY t t1).1
      rw [ka] at e1
      rw [← t4] at e2
      rw [e1, e2]
    rcases hb with hb | ⟨-, hb | ⟨g1, g2, g3⟩⟩
    · rw [yk] at hb; exact absurd hb (lt_irrefl _)
    · linarith
    · exact ⟨hkt, col_of_slope g1 yk, g2, g3⟩
  · exact S.queue.nodup.erase _
  · intro i
    rw [S.queue.nodup.mem_erase_iff, S.queue.left, hL]
    simp only [ne_eq, Ev.left.injEq, List.mem_append, List.mem_cons]
    tauto
  · intro j
    rw [S.queue.nodup.mem_erase_iff, S.queue.right]
    simp

end Sweep

open Sweep

variable {α κ : Type} {O : Ops α} (f : Flags O κ) {ε : ℚ} {Pt : List Point} {Y : ℚ → ℚ} {L F : List ℕ} {p : ℚ}

/-- The edges of the operand `o` bound a region and their direction tells on which side it is. -/
structure RegionOk (ε : ℚ) (o : Bool) (s : Store α) : Prop where
  deg : ∀ x, deg (absSeg ε s.heap) s.heap.count o x = 0
  own : ∀ k < s.heap.count, s.heap.first k = o → ∀ c, Act c (absSeg ε s.heap k) →
    ind (f.I s.heap k = true) = par (absSeg ε s.heap) s.heap.count o c (absSeg ε s.heap k) + 1

/-- Events in the sweep line and finished ones know whether they are inside of the operand `o`. -/
def SideInv (ε : ℚ) (o : Bool) (s : Store α) (L F : List ℕ) : Prop :=
  ∀ i ∈ L ++ F, s.heap.first i = !o →
    ind (f.X s.heap i = true) = par (absSeg ε s.heap) s.heap.count o (absSeg ε s.heap i).a (absSeg ε s.heap i) ∨
      Pend (absSeg ε s.heap) s.heap.count L F i

/-- mark of a segment overlapping with a segment of the other operand -/
def Flags.pairKind (h : Heap α) (i k : ℕ) : κ :=
  if h.first i then f.kind (f.I h i) (f.I h k) else f.kind (f.I h k) (f.I h i)

/-- What is known of the decisions. -/
structure DataInv (ε : ℚ) (s : Store α) (L F : List ℕ) : Prop where
  wait : ∀ k < s.heap.count, k ∉ L → k ∉ F → f.X s.heap k = false ∧ f.K s.heap k = f.none
  res : ∀ i ∈ L ++ F,
    (∃ k ∈ L ++ F, k ≠ i ∧ Hot ε s.heap i k ∧
      f.R s.heap i = f.rule (s.heap.first i) (f.X s.heap i) (f.pairKind s.heap i k)) ∨
    ((∀ k ∈ L ++ F, k ≠ i → ¬ Hot ε s.heap i k) ∧
      f.R s.heap i = f.rule (s.heap.first i) (f.X s.heap i) f.none)

variable {f}

theorem RegionOk.evolves {o : Bool} {s s' : Store α} {M L' F' : List ℕ} {p' : ℚ} {Ex Ex' : ℕ → ℕ → Prop}
    (R : RegionOk f ε o s) (ev : Evolves O ε Pt M s s') (S : St ε Pt Y s L F p Ex)
    (S' : St ε Pt Y s' L' F' p' Ex') : RegionOk f ε o s' := by
  constructor
  · intro x; rw [ev.deg]; exact R.deg x
  · intro k hk hf c hc
    obtain ⟨k', hk', part⟩ := ev.sub k hk
    obtain ⟨h1, h2, h3, h4⟩ := part.abs (S.inv'.proper k' hk') (S'.inv'.proper k hk)
    rw [ev.par, par_congr h1.1 h1.2 h2]
    have : f.I s'.heap k = f.I s.heap k' := part.data _ f.keepsAll
    rw [this]
    exact R.own k' hk' (part.first.symm.trans hf) c ⟨h3.trans hc.1, hc.2.trans_le h4⟩

section left

variable {s : Store α} {t : ℕ} {l₁ l₂ : List ℕ}

/-- sides after a left event -/
theorem SideInv.left {o : Bool} {s' : Store α} {M : List ℕ} {p' : ℚ} {Ex : ℕ → ℕ → Prop}
    (S : St ε Pt Y s L F p NoEx) (S' : St ε Pt Y s' (l₁ ++ t :: l₂) F p' Ex)
    (G : LeftGeo Y (absSeg ε s.heap) s.heap.count L F p' t l₁ l₂) (ev : Evolves O ε Pt M s s')
    (R : RegionOk f ε o s) (D : DataInv f ε s L F) (h : SideInv f ε o s L F)
    (ld : LeftData f ε s s' t l₁ l₂) : SideInv f ε o s' (l₁ ++ t :: l₂) F := by
  set A := absSeg ε s.heap with hA
  set n := s.heap.count with hn
  have ab : ∀ k < n, _ := fun k hk => ev.abs S S' hk
  -- what has to be shown, in terms of the old segments
  have conv : ∀ i < n, ∀ x, (ind (x = true) = par A n o (A i).a (A i) → ind (x = true) =
      par (absSeg ε s'.heap) s'.heap.count o (absSeg ε s'.heap i).a (absSeg ε s'.heap i)) := by
    intro i hi x hx
    obtain ⟨h1, h2, h3, -⟩ := ab i hi
    rw [ev.par, par_congr h1.1 h1.2 h2, h3]
    exact hx
  have pend : ∀ i < n, ∀ k < n, k ∉ L → k ∉ F → k ≠ t → (A k).ff = true → (A i).ff = false → Col (A k) (A i) →
      (A k).a = (A i).a → Pend (absSeg ε s'.heap) s'.heap.count (l₁ ++ t :: l₂) F i := by
    intro i hi k hk k1 k2 k3 k4 k5 k6 k7
    obtain ⟨a1, a2, a3, -⟩ := ab i hi
    obtain ⟨b1, b2, b3, -⟩ := ab k hk
    refine ⟨k, hk.trans_le ev.count, ?_, k2, b2.trans k4, a2.trans k5, (b1.trans k6).trans a1.symm, by rw [a3, b3]; exact k7⟩
    intro hm
    apply k1
    rw [G.hL]
    simp only [List.mem_append, List.mem_cons] at hm ⊢
    tauto
  have side : ∀ i ∈ L, (A i).ff = !o → ind (f.X s.heap i = true) = par A n o (A i).a (A i) ∨ Pend A n L F i :=
    fun i hi hf => h i (by simp [hi]) hf
  have bdt : ∀ i < n, i ∉ L → i ∉ F → (A i).a = p' → i ≠ t → Col (A i) (A t) → (A i).ff = (A t).ff → False := by
    intro i hi _ _ ia hne hc hf
    have p1 := G.inv.proper i hi
    have p2 := G.inv.proper t G.tn
    have := G.ta
    rcases G.inv.noOv i hi t G.tn hne hc hf with h' | h' <;> linarith
  intro i hi hif
  have hin : i < n := by
    rcases List.mem_append.1 hi with h' | h'
    · simp only [List.mem_append, List.mem_cons] at h'
      rcases h' with h' | rfl | h'
      · exact G.inv.ltn (by rw [G.hL]; simp [h'])
      · exact G.tn
      · exact G.inv.ltn (by rw [G.hL]; simp [h'])
    · exact G.inv.bound i (by simp [h'])
  have hff : (A i).ff = !o := by rw [← hif]; exact (ev.first i hin).symm
  by_cases hit : i = t
  · subst hit
    by_cases hw : ∃ k < n, k ∉ L ∧ k ∉ F ∧ (A k).a = p' ∧ Bel p' (A k) (A i)
    · obtain ⟨k, hk, k1, k2, k3, k4⟩ := hw
      obtain ⟨q1, q2, q3, q4⟩ := G.q k hk k1 k2 k3 k4
      exact Or.inr (pend i hin k hk k1 k2 q1 q3 q4 q2 (k3.trans G.ta.symm))
    · push Not at hw
      left
      apply conv i hin
      rw [G.ta, ld.self]
      obtain ⟨e1, e2⟩ := G.inv.formula (x := A i) (o := o) G.hne G.hL G.lo (fun x hx => (G.hi x hx).asymm) hw
        (by rw [← G.ta]; exact (G.inv.endsY i hin).1) hff R.deg (fun k hk hf c hc => R.own k hk hf c hc) side
      cases hb : l₁.getLast? with
      | none =>
        rw [e1 hb]
        show ind (f.X s.heap i = true) = 0
        rw [(D.wait i hin G.tL G.tF).1]
        exact ind_neg (by simp)
      | some j =>
        rw [e2 j hb, f.form_some]
        have : (A j).ff = (A i).ff ↔ s.heap.first j = s.heap.first i := Iff.rfl
        by_cases hj : s.heap.first j = s.heap.first i
        · rw [if_pos hj, if_pos (this.2 hj)]
        · rw [if_neg hj, if_neg (fun h' => hj (this.1 h'))]
  have hiL : i ∈ L ++ F := by
    rcases List.mem_append.1 hi with h' | h'
    · rw [G.hL]
      simp only [List.mem_append, List.mem_cons] at h' ⊢
      tauto
    · simp [h']
  by_cases ha : l₂.head? = some i ∧ Hot ε s.heap t i
  · obtain ⟨ha, hh⟩ := ha
    have hb := G.hi i (List.mem_of_mem_head? ha)
    obtain ⟨ft, fi⟩ : (A t).ff = true ∧ (A i).ff = false := by
      rcases hb with hb | ⟨-, hb | ⟨-, hb⟩⟩
      · rw [hh.1.y p'] at hb; exact absurd hb (lt_irrefl _)
      · have := hh.1.1; linarith
      · exact hb
    have ho : o = true := by
      rw [fi] at hff
      revert hff
      cases o <;> simp
    left
    apply conv i hin
    rw [(ld.above i ha hh).1, ← hh.2, G.ta]
    rw [par_pair G.tn hh.1 ft fi (c := p') ⟨G.ta.le, by rw [← G.ta]; exact G.inv.proper t G.tn⟩, ind_pos ho]
    · exact R.own t G.tn (by rw [ho]; exact ft) p' ⟨G.ta.le, by rw [← G.ta]; exact G.inv.proper t G.tn⟩
    · intro k hk hkt hc hf hact
      have p1 := G.inv.proper t G.tn
      have := G.ta
      have a1 := hact.1
      have a2 := hact.2
      rcases G.inv.noOv k hk t G.tn hkt hc (hf.trans ft.symm) with h' | h' <;> linarith
  by_cases hb : l₁.getLast? = some i ∧ Hot ε s.heap i t
  · obtain ⟨hb, hh⟩ := hb
    have hil : i ∈ l₁ := List.mem_of_getLast? hb
    have hbt := G.lo i hil
    obtain ⟨fi, ft⟩ : (A i).ff = true ∧ (A t).ff = false := by
      rcases hbt with hb | ⟨-, hb | ⟨-, hb⟩⟩
      · rw [hh.1.y p'] at hb; exact absurd hb (lt_irrefl _)
      · have := hh.1.1; linarith
      · exact hb
    have hia : (A i).a = p' := hh.2.trans G.ta
    left
    apply conv i hin
    obtain ⟨l, hl⟩ := List.getLast?_eq_some_iff.1 hb
    have hLi : L = l ++ (i :: l₂) := by rw [G.hL, hl]; simp
    have pw := G.inv.belPair G.hne
    rw [hLi] at pw
    have pw' := List.pairwise_append.1 pw
    obtain ⟨e1, e2⟩ := G.inv.formula (x := A i) (o := o) G.hne hLi (fun j hj => pw'.2.2 j hj i (by simp)) (by
        intro j hj
        rcases List.mem_cons.1 hj with rfl | hj
        · exact Bel.irrefl
        · exact ((List.pairwise_cons.1 pw'.2.1).1 j hj).asymm) (by
        intro k hk k1 k2 k3 k4
        obtain ⟨q1, q2, q3, q4⟩ := G.q k hk k1 k2 k3 (k4.trans hbt)
        have hki : k ≠ i := by
          rintro rfl
          exact k1 (by rw [hLi]; simp)
        have p1 := G.inv.proper i hin
        have p2 := G.inv.proper k hk
        rcases G.inv.noOv k hk i hin hki (q2.trans hh.1.symm) (q3.trans fi.symm) with h' | h' <;> linarith)
      (by rw [← hia]; exact (G.inv.endsY i hin).1) hff R.deg (fun k hk hf c hc => R.own k hk hf c hc) side
    rw [(ld.below i hb hh).1]
    have hdl : l₁.dropLast = l := by rw [hl]; simp
    rw [hdl]
    cases hj : l.getLast? with
    | none =>
      show ind (f.X s.heap i = true) = _
      rcases side i (by rw [hLi]; simp) hff with h' | ⟨k, -, -, -, -, k5, -⟩
      · exact h'
      · rw [fi] at k5; cases k5
    | some j =>
      rw [hia, e2 j hj, f.form_some]
      have : (A j).ff = (A i).ff ↔ s.heap.first j = s.heap.first i := Iff.rfl
      by_cases hj : s.heap.first j = s.heap.first i
      · rw [if_pos hj, if_pos (this.2 hj)]
      · rw [if_neg hj, if_neg (fun h' => hj (this.1 h'))]
  have e := (ld.rest i hin hit (fun a h1 h2 h3 => ha ⟨h3 ▸ h1, h3 ▸ h2⟩) (fun b h1 h2 h3 => hb ⟨h3 ▸ h1, h3 ▸ h2⟩)).1
  rw [e]
  rcases h i hiL hff with h' | ⟨k, k1, k2, k3, k4, k5, k6, k7⟩
  · exact Or.inl (conv i hin _ h')
  · right
    by_cases hkt : k = t
    · subst hkt
      have := G.above_adj hiL k6 (k7.symm.trans G.ta) k4 k5
      exact absurd ⟨this, k6, k7⟩ ha
    · exact pend i hin k k1 k2 k3 hkt k4 k5 k6 k7

/-- decisions after a left event -/
theorem DataInv.left {s' : Store α} {M : List ℕ} {p' : ℚ} {Ex : ℕ → ℕ → Prop}
    (S : St ε Pt Y s L F p NoEx) (S' : St ε Pt Y s' (l₁ ++ t :: l₂) F p' Ex)
    (G : LeftGeo Y (absSeg ε s.heap) s.heap.count L F p' t l₁ l₂) (ev : Evolves O ε Pt M s s')
    (D : DataInv f ε s L F) (ld : LeftData f ε s s' t l₁ l₂) : DataInv f ε s' (l₁ ++ t :: l₂) F := by
  set n := s.heap.count with hn
  have mem : ∀ i, i ∈ l₁ ++ t :: l₂ ++ F ↔ i = t ∨ i ∈ L ++ F := by
    intro i
    rw [G.hL]
    simp only [List.mem_append, List.mem_cons]
    tauto
  have bd : ∀ i, i = t ∨ i ∈ L ++ F → i < n := by
    rintro i (rfl | h)
    · exact G.tn
    · exact G.inv.bound i h
  have hot : ∀ u v, (u = t ∨ u ∈ L ++ F) → (v = t ∨ v ∈ L ++ F) → (Hot ε s'.heap u v ↔ Hot ε s.heap u v) :=
    fun u v hu hv => ev.hot S S' (bd u hu) (bd v hv)
  -- overlapping segments which start at the same place are neighbours
  have adj : ∀ i ∈ L ++ F, Hot ε s.heap t i → (l₂.head? = some i ∧ s.heap.first t = true) ∨
      (l₁.getLast? = some i ∧ s.heap.first t = false) := by
    intro i hi hh
    have hne : i ≠ t := by
      rintro rfl
      rcases List.mem_append.1 hi with h | h
      exacts [G.tL h, G.tF h]
    have nf := S.hot_first G.tn (bd i (Or.inr hi)) hne.symm hh
    have ia : (absSeg ε s.heap i).a = p' := hh.2.symm.trans G.ta
    cases ht : s.heap.first t with
    | true =>
      have fi : s.heap.first i = false := by rw [ht] at nf; simpa using nf.symm
      exact Or.inl ⟨G.above_adj hi hh.1 ia ht fi, rfl⟩
    | false =>
      have fi : s.heap.first i = true := by rw [ht] at nf; simpa using nf.symm
      exact Or.inr ⟨G.below_adj hi hh.1.symm ia ht fi, rfl⟩
  have fst : ∀ i, (i = t ∨ i ∈ L ++ F) → s'.heap.first i = s.heap.first i := fun i hi => ev.first i (bd i hi)
  have itl : ∀ i, (i = t ∨ i ∈ L ++ F) → f.I s'.heap i = f.I s.heap i := fun i hi => ld.itl i (bd i hi)
  have pk : ∀ u v, (u = t ∨ u ∈ L ++ F) → (v = t ∨ v ∈ L ++ F) → f.pairKind s'.heap u v = f.pairKind s.heap u v := by
    intro u v hu hv
    unfold Flags.pairKind
    rw [fst u hu, itl u hu, itl v hv]
  have hofs : ∀ a, l₂.head? = some a → a ∈ L ++ F := fun a ha => by
    have : a ∈ l₂ := List.mem_of_mem_head? ha
    rw [G.hL]; simp [this]
  have hofl : ∀ a, l₁.getLast? = some a → a ∈ L ++ F := fun a ha => by
    have : a ∈ l₁ := List.mem_of_getLast? ha
    rw [G.hL]; simp [this]
  have net : ∀ i ∈ L ++ F, i ≠ t := by
    rintro i hi rfl
    rcases List.mem_append.1 hi with h | h
    exacts [G.tL h, G.tF h]
  constructor
  · intro k hk h1 h2
    by_cases hkn : k < n
    · have k1 : k ≠ t := fun e => h1 (by simp [e])
      have k2 : k ∉ L := by
        intro h; apply h1; rw [G.hL] at h
        simp only [List.mem_append, List.mem_cons] at h ⊢
        tauto
      have k3 : ∀ i ∈ L ++ F, k ≠ i := by
        rintro i hi rfl
        rcases List.mem_append.1 hi with h | h
        exacts [k2 h, h2 h]
      rw [(ld.rest k hkn k1 (fun a ha _ => k3 a (hofs a ha)) (fun b hb _ => k3 b (hofl b hb))).1,
        ld.mark k hkn k1 (by rw [← G.hL]; exact k2)]
      exact D.wait k hkn k2 h2
    · exact ld.fresh k hk (not_lt.1 hkn)
  · intro i hi
    rw [mem] at hi
    rw [fst i hi]
    by_cases hit : i = t
    · subst hit
      by_cases ha : ∃ a, l₂.head? = some a ∧ Hot ε s.heap i a
      · obtain ⟨a, ha, hh⟩ := ha
        have haL := hofs a ha
        have hne := net a haL
        left
        refine ⟨a, (mem a).2 (Or.inr haL), hne, (hot i a hi (Or.inr haL)).2 hh, ?_⟩
        rw [(ld.above a ha hh).2.1, pk i a hi (Or.inr haL)]
        rcases adj a haL hh with ⟨-, h'⟩ | ⟨h', -⟩
        · unfold Flags.pairKind; rw [h', if_pos rfl]
        · have h1 : a ∈ l₁ := List.mem_of_getLast? h'
          have h2 : a ∈ l₂ := List.mem_of_mem_head? ha
          have := G.inv.nodupL
          rw [G.hL] at this
          exact absurd rfl ((List.nodup_append.1 this).2.2 a h1 a h2)
      by_cases hb : ∃ b, l₁.getLast? = some b ∧ Hot ε s.heap b i
      · obtain ⟨b, hb, hh⟩ := hb
        have hbL := hofl b hb
        have hne := net b hbL
        left
        refine ⟨b, (mem b).2 (Or.inr hbL), hne, (hot i b hi (Or.inr hbL)).2 hh.symm, ?_⟩
        rw [(ld.below b hb hh).2.1, pk i b hi (Or.inr hbL)]
        rcases adj b hbL hh.symm with ⟨h', -⟩ | ⟨-, h'⟩
        · exact absurd ⟨b, h', hh.symm⟩ ha
        · unfold Flags.pairKind; rw [h']; simp
      right
      push Not at ha hb
      refine ⟨?_, ?_⟩
      · intro k hk hne hh
        rw [mem] at hk
        have hkL := hk.resolve_left hne
        rw [hot i k hi hk] at hh
        rcases adj k hkL hh with ⟨h', -⟩ | ⟨h', -⟩
        · exact ha k h' hh
        · exact hb k h' hh.symm
      · rw [ld.alone ha hb, (D.wait i G.tn G.tL G.tF).2]
    have hiL := hi.resolve_left hit
    have hti : t = t ∨ t ∈ L ++ F := Or.inl rfl
    by_cases ha : l₂.head? = some i ∧ Hot ε s.heap t i
    · obtain ⟨ha, hh⟩ := ha
      left
      refine ⟨t, (mem t).2 hti, fun e => hit e.symm, (hot i t hi hti).2 hh.symm, ?_⟩
      rw [(ld.above i ha hh).2.2, pk i t hi hti]
      have nf := S.hot_first G.tn (bd i hi) (fun e => hit e.symm) hh
      rcases adj i hiL hh with ⟨-, h'⟩ | ⟨h', -⟩
      · unfold Flags.pairKind
        rw [h'] at nf
        have : s.heap.first i = false := by simpa using nf.symm
        rw [this]; simp
      · have h1 : i ∈ l₁ := List.mem_of_getLast? h'
        have h2 : i ∈ l₂ := List.mem_of_mem_head? ha
        have := G.inv.nodupL
        rw [G.hL] at this
        exact absurd rfl ((List.nodup_append.1 this).2.2 i h1 i h2)
    by_cases hb : l₁.getLast? = some i ∧ Hot ε s.heap i t
    · obtain ⟨hb, hh⟩ := hb
      left
      refine ⟨t, (mem t).2 hti, fun e => hit e.symm, (hot i t hi hti).2 hh, ?_⟩
      rw [(ld.below i hb hh).2.2, pk i t hi hti]
      have nf := S.hot_first G.tn (bd i hi) (fun e => hit e.symm) hh.symm
      rcases adj i hiL hh.symm with ⟨h', -⟩ | ⟨-, h'⟩
      · exact absurd ⟨h', hh.symm⟩ ha
      · unfold Flags.pairKind
        rw [h'] at nf
        have : s.heap.first i = true := by simpa using nf.symm
        rw [this]; simp
    have e := ld.rest i (bd i hi) hit (fun a h1 h2 h3 => ha ⟨h3 ▸ h1, h3 ▸ h2⟩) (fun b h1 h2 h3 => hb ⟨h3 ▸ h1, h3 ▸ h2⟩)
    rw [e.1, e.2]
    rcases D.res i hiL with ⟨k, hk, hki, hh, hr⟩ | ⟨hn', hr⟩
    · left
      refine ⟨k, (mem k).2 (Or.inr hk), hki, (hot i k hi (Or.inr hk)).2 hh, ?_⟩
      rw [pk i k hi (Or.inr hk), hr]
    · right
      refine ⟨?_, hr⟩
      intro k hk hki hh
      rw [mem] at hk
      rw [hot i k hi hk] at hh
      rcases hk with rfl | hk
      · rcases adj i hiL hh.symm with ⟨h', -⟩ | ⟨h', -⟩
        · exact ha ⟨h', hh.symm⟩
        · exact hb ⟨h', hh⟩
      · exact hn' k hk hki hh

end left

/-- Nothing changes if the fields are kept. -/
theorem SideInv.keep {o : Bool} {s s' : Store α} {M L' F' : List ℕ} {p' : ℚ} {Ex Ex' : ℕ → ℕ → Prop}
    (S : St ε Pt Y s L F p Ex) (S' : St ε Pt Y s' L' F' p' Ex') (ev : Evolves O ε Pt M s s')
    (h : SideInv f ε o s L F) {m : List ℕ} (u : f.Upd s s' [] m) (hm : ∀ i, i ∈ L' ++ F' ↔ i ∈ L ++ F) :
    SideInv f ε o s' L' F' := by
  intro i hi hf
  rw [hm] at hi
  have hin := S.inv'.bound i hi
  obtain ⟨a1, a2, a3, -⟩ := ev.abs S S' hin
  rw [u.oth i hin (by simp), ev.par, par_congr a1.1 a1.2 a2, a3]
  rcases h i hi ((ev.first i hin).symm.trans hf) with h' | ⟨k, k1, k2, k3, k4, k5, k6, k7⟩
  · exact Or.inl h'
  · right
    obtain ⟨b1, b2, b3, -⟩ := ev.abs S S' k1
    have : k ∉ L' ++ F' := by
      rw [hm]; simp [k2, k3]
    simp only [List.mem_append, not_or] at this
    exact ⟨k, k1.trans_le ev.count, this.1, this.2, b2.trans k4, a2.trans k5, (b1.trans k6).trans a1.symm,
      by rw [a3, b3]; exact k7⟩

theorem DataInv.keep {s s' : Store α} {M L' F' : List ℕ} {p' : ℚ} {Ex Ex' : ℕ → ℕ → Prop}
    (S : St ε Pt Y s L F p Ex) (S' : St ε Pt Y s' L' F' p' Ex') (ev : Evolves O ε Pt M s s')
    (D : DataInv f ε s L F) {m : List ℕ} (u : f.Upd s s' [] m) (hm : ∀ i, i ∈ L' ++ F' ↔ i ∈ L ++ F)
    (hmm : ∀ i ∈ m, i ∈ L ++ F) : DataInv f ε s' L' F' := by
  have bd := S.inv'.bound
  have hot : ∀ u v, u ∈ L ++ F → v ∈ L ++ F → (Hot ε s'.heap u v ↔ Hot ε s.heap u v) :=
    fun u v hu hv => ev.hot S S' (bd u hu) (bd v hv)
  have pk : ∀ i k, i ∈ L ++ F → k ∈ L ++ F → f.pairKind s'.heap i k = f.pairKind s.heap i k := by
    intro i k hi hk
    unfold Flags.pairKind
    rw [ev.first i (bd i hi), u.itl i (bd i hi), u.itl k (bd k hk)]
  constructor
  · intro k hk h1 h2
    have hkm : k ∉ L ++ F := by rw [← hm]; simp [h1, h2]
    by_cases hkn : k < s.heap.count
    · rw [u.oth k hkn (by simp), u.mark k hkn (fun h => hkm (hmm k h))]
      simp only [List.mem_append, not_or] at hkm
      exact D.wait k hkn hkm.1 hkm.2
    · exact u.fresh k hk (not_lt.1 hkn)
  · intro i hi
    rw [hm] at hi
    rw [ev.first i (bd i hi), u.oth i (bd i hi) (by simp), u.res i (bd i hi) (by simp)]
    rcases D.res i hi with ⟨k, hk, hki, hh, hr⟩ | ⟨hn', hr⟩
    · left
      refine ⟨k, (hm k).2 hk, hki, (hot i k hi hk).2 hh, ?_⟩
      rw [pk i k hi hk, hr]
    · right
      refine ⟨?_, hr⟩
      intro k hk hki hh
      rw [hm] at hk
      exact hn' k hk hki ((hot i k hi hk).1 hh)

end Clipping

import Verif.Lemmas.Plane.Cyclic

/-!
# Ways and loops in plane graphs
-/

namespace Clipping

namespace Darts

variable {D : Darts}

/-- The edges lead from one point to the other. -/
def IsWay (D : Darts) : Point → List ℕ → Point → Prop
  | a, [], b => a = b
  | a, i :: l, b => D.key i = a ∧ IsWay D (D.key (D.opp i)) l b

theorem isWay_append {a c : Point} {l l' : List ℕ} : D.IsWay a (l ++ l') c ↔ ∃ b, D.IsWay a l b ∧ D.IsWay b l' c := by
  induction l generalizing a with
  | nil => simp [IsWay]
  | cons i l ih =>
    simp only [List.cons_append, IsWay, ih]
    constructor
    · rintro ⟨h, b, h1, h2⟩; exact ⟨b, ⟨h, h1⟩, h2⟩
    · rintro ⟨b, ⟨h, h1⟩, h2⟩; exact ⟨h, b, h1, h2⟩

theorem isWay_snoc {a c : Point} {l : List ℕ} {i : ℕ} :
    D.IsWay a (l ++ [i]) c ↔ D.IsWay a l (D.key i) ∧ D.key (D.opp i) = c := by
  rw [isWay_append]
  constructor
  · rintro ⟨b, h1, h2, h3⟩; rw [h2]; exact ⟨h1, h3⟩
  · rintro ⟨h1, h2⟩; exact ⟨_, h1, rfl, h2⟩

theorem degree_cons (e : Segment) (E : List Segment) (q : Point) :
    degree (e :: E) q = (if e.start = q then 1 else 0) + (if e.stop = q then 1 else 0) + degree E q := by
  unfold degree
  rw [List.countP_cons, List.countP_cons]
  simp only [decide_eq_true_eq]
  omega

theorem way_degree {a b : Point} {l : List ℕ} (h : D.IsWay a l b) (q : Point) :
    Even (degree (l.map D.seg) q + (if a = q then 1 else 0) + (if b = q then 1 else 0)) := by
  induction l generalizing a with
  | nil =>
    cases h
    have : degree (([] : List ℕ).map D.seg) q = 0 := by simp [degree]
    rw [this]
    split_ifs <;> decide
  | cons i l ih =>
    obtain ⟨rfl, h⟩ := h
    have := ih h
    rw [List.map_cons, degree_cons]
    simp only [seg]
    rw [Nat.even_iff] at this ⊢
    by_cases a1 : D.key i = q <;> by_cases a2 : D.key (D.opp i) = q <;> by_cases a3 : b = q <;>
      simp only [a1, a2, a3, if_true, if_false] at this ⊢ <;> omega

/-- Two ways between the same points -/
theorem ways_even {a b : Point} {l l' : List ℕ} (h : D.IsWay a l b) (h' : D.IsWay a l' b) (q : Point) :
    Even (degree (l.map D.seg ++ l'.map D.seg) q) := by
  have h1 := way_degree h q
  have h2 := way_degree h' q
  rw [degree_append]
  rw [Nat.even_iff] at h1 h2 ⊢
  omega

theorem closed_even {a : Point} {l : List ℕ} (h : D.IsWay a l a) (q : Point) : Even (degree (l.map D.seg) q) := by
  have h1 := way_degree h q
  rw [Nat.even_iff] at h1 ⊢
  omega

theorem way_edges {a b : Point} : ∀ {i : ℕ} {l : List ℕ}, D.IsWay a (i :: l) b →
    List.zipWith Segment.mk ((i :: l).map D.key) (l.map D.key ++ [b]) = (i :: l).map D.seg := by
  intro i l
  induction l generalizing i a with
  | nil =>
    rintro ⟨-, h⟩
    simp only [IsWay] at h
    simp [seg, h]
  | cons j l ih =>
    rintro ⟨-, h⟩
    have := ih h
    obtain ⟨h1, -⟩ := h
    rw [List.map_cons, List.map_cons, List.cons_append, List.zipWith_cons_cons, ← List.map_cons, this, List.map_cons,
      List.map_cons, List.map_cons]
    congr 1
    unfold seg
    rw [h1]

/-- A simple closed curve -/
structure Loop (D : Darts) (l : List ℕ) : Prop where
  lt : ∀ i ∈ l, i < D.n
  ne : l ≠ []
  way : ∃ v, D.IsWay v l v
  keys : (l.map D.key).Nodup
  opp : ∀ i ∈ l, D.opp i ∉ l

namespace Loop

variable {l : List ℕ}

theorem nodup (h : D.Loop l) : l.Nodup := h.keys.of_map

theorem ends (h : D.Loop l) : EndsOnly (l.map D.seg) := ends_list h.lt h.nodup h.opp

theorem even (h : D.Loop l) (q : Point) : Even (degree (l.map D.seg) q) := by
  obtain ⟨v, hv⟩ := h.way
  exact closed_even hv q

theorem proper (h : D.Loop l) : ∀ g ∈ l.map D.seg, g.Proper := by
  intro g hg
  obtain ⟨i, hi, rfl⟩ := List.mem_map.1 hg
  exact D.ne i (h.lt i hi)

/-- the vertices -/
def contour (D : Darts) (l : List ℕ) : Contour := ⟨l.map D.key⟩

theorem edges (h : D.Loop l) : (contour D l).edges = l.map D.seg := by
  obtain ⟨v, hv⟩ := h.way
  have ne := h.ne
  cases l with
  | nil => exact absurd rfl ne
  | cons i l =>
    unfold contour Contour.edges
    rw [List.map_cons]
    have := way_edges hv
    obtain ⟨rfl, -⟩ := hv
    rw [← this]
    rfl

theorem three (h : D.Loop l) : 3 ≤ l.length := by
  obtain ⟨v, hv⟩ := h.way
  have nd := h.nodup
  have lt := h.lt
  have opp := h.opp
  have ne := h.ne
  match l, hv with
  | [], _ => exact absurd rfl ne
  | [i], ⟨h1, h2⟩ =>
    have hi := lt i (by simp)
    exact absurd (h1.trans h2.symm) (D.ne i hi)
  | [i, j], ⟨h1, h2, h3⟩ =>
    exfalso
    have hi := lt i (by simp)
    have hj := lt j (by simp)
    simp only [IsWay] at h3
    have hij : i ≠ j := by simpa using nd
    have hoj : D.opp i ≠ j := fun e => opp i (by simp) (by simp [e])
    obtain ⟨m, hm, hmi⟩ := exists_inner (D.proper hi)
    refine hmi (seg_ends hi hj hij hoj hm ?_).1
    have : D.seg j = (D.seg i).swap := by
      unfold seg Segment.swap
      simp only [Segment.mk.injEq]
      exact ⟨h2, h3.trans h1.symm⟩
    rw [this, Segment.swap_pts]
    exact hm
  | _ :: _ :: _ :: _, _ => simp

theorem simple (h : D.Loop l) : SimpleContour (contour D l) where
  three := by unfold contour; simp only [List.length_map]; exact h.three
  nodup := h.keys
  ends := by rw [h.edges]; exact h.ends

theorem same (h : D.Loop l) : SameEdges (l.map D.seg) (contour D l).edges := by
  rw [h.edges]; exact SameEdges.of_perm (List.Perm.refl _)

theorem rotate {l' : List ℕ} (h : D.Loop (l ++ l')) : D.Loop (l' ++ l) := by
  have perm : (l ++ l').Perm (l' ++ l) := List.perm_append_comm
  refine ⟨fun i hi => h.lt i (perm.mem_iff.2 hi), ?_, ?_, (perm.map _).nodup_iff.1 h.keys,
    fun i hi ho => h.opp i (perm.mem_iff.2 hi) (perm.mem_iff.2 ho)⟩
  · intro e
    apply h.ne
    rw [List.append_eq_nil_iff] at e ⊢
    exact e.symm
  · obtain ⟨v, hv⟩ := h.way
    obtain ⟨b, h1, h2⟩ := isWay_append.1 hv
    exact ⟨b, isWay_append.2 ⟨v, h2, h1⟩⟩

/-- A loop is divided in two by two of its vertices. -/
theorem split (h : D.Loop l) {v w : Point} (hv : D.IsWay v l v) (hw : w ∈ l.map D.key) (hne : w ≠ v) :
    ∃ α β, l = α ++ β ∧ α ≠ [] ∧ β ≠ [] ∧ D.IsWay v α w ∧ D.IsWay w β v := by
  obtain ⟨i, hi, rfl⟩ := List.mem_map.1 hw
  obtain ⟨α, β, rfl⟩ := List.append_of_mem hi
  obtain ⟨b, h1, h2⟩ := isWay_append.1 hv
  have hb : D.key i = b := h2.1
  subst hb
  refine ⟨α, i :: β, rfl, ?_, by simp, h1, h2⟩
  rintro rfl
  exact hne h1.symm

end Loop

/-- Points of an edge which is not in `L` are connected with the left of the edge. -/
theorem side_of_edge {F : Finset ℕ} (h : D.Closed F) {L : List ℕ} (hL : ∀ i ∈ L, i ∈ F) {d : ℕ} (hd : d ∈ F) (h1 : d ∉ L)
    (h2 : D.opp d ∉ L) {m x : Point} (hm : m ∈ (D.seg d).pts) (off : m ∉ segsPts (L.map D.seg)) {σ : ℚ}
    (hx : SideOf (D.edges F) (D.seg d) σ x) : Linked (L.map D.seg) m x := by
  have ld := h.lt d hd
  obtain ⟨m₀, hm₀, hi, hr, -⟩ := hx
  have meet : ∀ z ∈ (D.seg d).pts, z ∈ segsPts (L.map D.seg) → (D.seg d).IsEnd z := by
    rintro z hz ⟨g, hg, hzg⟩
    obtain ⟨i, hi, rfl⟩ := List.mem_map.1 hg
    have li := h.lt i (hL i hi)
    refine (seg_ends ld li (fun e => h1 (e ▸ hi)) (fun e => h2 (e ▸ hi)) hz hzg).1
  have f1 : Free (L.map D.seg) m₀ m := by
    intro z hz hzL
    have hzd := mk_sub hm₀ hm hz
    have he := meet z hzd hzL
    have hz' : z ∈ (Segment.mk m m₀).pts := by rw [← Segment.pts_swap]; exact hz
    have := end_between (D.proper ld) hm₀ hi hm hz' he
    rw [this] at hzL
    exact off hzL
  have f2 : Free (L.map D.seg) m₀ x := by
    intro z hz hzL
    have hzT : z ∈ segsPts (D.edges F) := by
      obtain ⟨g, hg, hzg⟩ := hzL
      obtain ⟨i, hi, rfl⟩ := List.mem_map.1 hg
      exact h.mem_pts.2 ⟨i, hL i hi, hzg⟩
    have := hr z hz hzT
    rw [this] at hzL
    exact hi (meet m₀ hm₀ hzL)
  exact f1.symm.linked.trans f2.linked

/-- A loop with one face on its left does not have a connection of two of its vertices on its left. -/
theorem no_theta {F : Finset ℕ} (h : D.Closed F) {L Q : List ℕ} (hL : D.Loop L) (memL : ∀ i ∈ L, i ∈ F)
    (memQ : ∀ i ∈ Q, i ∈ F) (face : ∀ i ∈ L, ∀ j ∈ L, D.SameFace F i j) (ndQ : Q.Nodup) (dis : ∀ i ∈ Q, i ∉ L)
    (oppQ : ∀ i ∈ Q, D.opp i ∉ Q) (oppL : ∀ i ∈ Q, D.opp i ∉ L) {v w : Point} (hv : v ∈ L.map D.key)
    (hw : w ∈ L.map D.key) (hne : w ≠ v) (hQ : D.IsWay v Q w)
    (side : ∀ i ∈ L, ∀ q, D.LeftOf F i q → ∀ m ∈ segsPts (Q.map D.seg), m ∉ segsPts (L.map D.seg) →
      (Inside (L.map D.seg) m ↔ Inside (L.map D.seg) q)) : False := by
  -- begin the loop with `v`
  obtain ⟨i, hi, hiv⟩ := List.mem_map.1 hv
  obtain ⟨l₁, l₂, rfl⟩ := List.append_of_mem hi
  have perm : (l₁ ++ i :: l₂).Perm (i :: l₂ ++ l₁) := List.perm_append_comm
  have hL' := hL.rotate
  obtain ⟨u, hu⟩ := hL'.way
  have : D.key i = u := hu.1
  have huv : u = v := this.symm.trans hiv
  rw [huv] at hu
  obtain ⟨α, β, e, hα, hβ, w1, w2⟩ := hL'.split hu ((perm.map D.key).mem_iff.1 hw) hne
  rw [e] at hL' hu perm
  have mem' : ∀ x, x ∈ α ++ β ↔ x ∈ l₁ ++ i :: l₂ := fun x => perm.mem_iff.symm
  obtain ⟨a, ha⟩ := List.exists_mem_of_ne_nil _ hα
  obtain ⟨b, hb⟩ := List.exists_mem_of_ne_nil _ hβ
  have ha' := (mem' a).1 (List.mem_append_left _ ha)
  have hb' := (mem' b).1 (List.mem_append_right _ hb)
  have la := h.lt a (memL a ha')
  have lb := h.lt b (memL b hb')
  obtain ⟨q, hq⟩ := h.exists_left la
  obtain ⟨q', hq'⟩ := h.exists_left lb
  have memAll : ∀ x ∈ α ++ β ++ Q, x ∈ F := by
    intro x hx
    rcases List.mem_append.1 hx with hx | hx
    · exact memL x ((mem' x).1 hx)
    · exact memQ x hx
  have maps : α.map D.seg ++ β.map D.seg ++ Q.map D.seg = (α ++ β ++ Q).map D.seg := by simp
  have maps2 : α.map D.seg ++ β.map D.seg = (α ++ β).map D.seg := by simp
  have samePts : segsPts ((α ++ β).map D.seg) = segsPts ((l₁ ++ i :: l₂).map D.seg) := segsPts_perm (perm.map _).symm
  have sameIns : ∀ z, Inside ((α ++ β).map D.seg) z ↔ Inside ((l₁ ++ i :: l₂).map D.seg) z :=
    fun z => inside_perm (perm.map _).symm z
  refine theta (T := D.edges F) (α := α.map D.seg) (β := β.map D.seg) (Q := Q.map D.seg) h.proper ?_ ?_ ?_
    (c := Loop.contour D (α ++ β)) hL'.simple ?_ ?_ ?_ (List.mem_map_of_mem ha) (List.mem_map_of_mem hb) (h.alone la)
    (h.alone lb) hq hq' (face a ha' b hb' q q' hq hq') ?_
  · rw [maps]
    intro g hg
    obtain ⟨x, hx, rfl⟩ := List.mem_map.1 hg
    exact D.ne x (h.lt x (memAll x hx))
  · rw [maps]
    refine ends_list (fun x hx => h.lt x (memAll x hx)) ?_ ?_
    · rw [List.nodup_append']
      refine ⟨hL'.nodup, ndQ, ?_⟩
      intro x hx hxQ
      exact dis x hxQ ((mem' x).1 hx)
    · intro x hx ho
      rcases List.mem_append.1 hx with hx | hx <;> rcases List.mem_append.1 ho with ho | ho
      · exact hL'.opp x hx ho
      · refine oppL _ ho ?_
        rw [D.opp_opp x (h.lt x (memL x ((mem' x).1 hx)))]
        exact (mem' x).1 hx
      · exact oppL x hx ((mem' _).1 ho)
      · exact oppQ x hx ho
  · rw [maps]
    rintro z ⟨g, hg, hz⟩
    obtain ⟨x, hx, rfl⟩ := List.mem_map.1 hg
    exact h.mem_pts.2 ⟨x, memAll x hx, hz⟩
  · rw [maps2]; exact hL'.same
  · rw [maps2]; exact hL'.even
  · exact ways_even w1 hQ
  · rw [maps2]
    intro m hm hoff
    rw [samePts] at hoff
    rw [sameIns, sameIns]
    exact side a ha' q hq m hm hoff

/-- The number of edges at a vertex -/
theorem degree_edges {F : Finset ℕ} (h : D.Closed F) (q : Point) :
    degree (D.edges F) q = (F.filter fun i => D.key i = q).card := by
  classical
  have c1 : ∀ (s : Finset ℕ) (P : ℕ → Prop) [DecidablePred P], s.toList.countP (fun i => decide (P i)) = (s.filter P).card := by
    intro s P _
    rw [List.countP_eq_length_filter, Finset.card_def, ← Multiset.coe_card, ]
    congr 1
    rw [Finset.filter_val, ← Finset.coe_toList s, Multiset.filter_coe]
  unfold degree edges
  rw [List.countP_map, List.countP_map]
  have e1 : ((fun e : Segment => decide (e.start = q)) ∘ D.seg) = fun i => decide (D.key i = q) := rfl
  have e2 : ((fun e : Segment => decide (e.stop = q)) ∘ D.seg) = fun i => decide (D.key (D.opp i) = q) := rfl
  rw [e1, e2, c1, c1]
  have e3 : ((F.filter fun i => D.key i < D.key (D.opp i)).filter fun i => D.key (D.opp i) = q).card =
      ((F.filter fun i => ¬ D.key i < D.key (D.opp i)).filter fun i => D.key i = q).card := by
    refine Finset.card_bij (fun i _ => D.opp i) ?_ ?_ ?_
    · intro i hi
      simp only [Finset.mem_filter] at hi ⊢
      have := D.opp_opp i (h.lt i hi.1.1)
      rw [this]
      exact ⟨⟨h.opp i hi.1.1, lt_asymm hi.1.2⟩, hi.2⟩
    · intro i hi j hj hij
      simp only [Finset.mem_filter] at hi hj
      exact opp_inj (h.lt i hi.1.1) (h.lt j hj.1.1) hij
    · intro i hi
      simp only [Finset.mem_filter] at hi
      have li := h.lt i hi.1.1
      have := D.opp_opp i li
      refine ⟨D.opp i, ?_, this⟩
      simp only [Finset.mem_filter]
      rw [this]
      exact ⟨⟨h.opp i hi.1.1, lt_of_le_of_ne (not_lt.1 hi.1.2) (D.ne i li).symm⟩, hi.2⟩
  rw [e3]
  have := Finset.card_filter_add_card_filter_not (s := F.filter fun i => D.key i = q) fun i => D.key i < D.key (D.opp i)
  rw [← this]
  congr 2 <;> (ext i; simp only [Finset.mem_filter]; tauto)

/-- No vertex has only one edge. -/
theorem Closed.another {F : Finset ℕ} (h : D.Closed F) (ev : ∀ q, Even (degree (D.edges F) q)) {i : ℕ} (hi : i ∈ F) :
    ∃ x ∈ F, D.key x = D.key i ∧ x ≠ i := by
  by_contra hn
  push Not at hn
  have := ev (D.key i)
  rw [degree_edges h] at this
  have e : (F.filter fun j => D.key j = D.key i) = {i} := by
    ext x
    rw [Finset.mem_filter, Finset.mem_singleton]
    constructor
    · rintro ⟨h1, h2⟩; exact hn x h1 h2
    · rintro rfl; exact ⟨hi, rfl⟩
  rw [e, Finset.card_singleton] at this
  exact absurd this (by decide)

end Darts

end Clipping

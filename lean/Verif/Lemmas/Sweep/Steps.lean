import Verif.Lemmas.Sweep.Inv
import Mathlib.Algebra.Order.Field.Basic

/-!
# Steps of the sweep keep the invariant
-/

namespace Clipping.Sweep

variable {Y : ℚ → ℚ} {A : ℕ → Seg} {n : ℕ} {L F : List ℕ} {p : ℚ} {Ex : ℕ → ℕ → Prop}

/-- no exceptions -/
abbrev NoEx : ℕ → ℕ → Prop := fun _ _ => False

theorem Inv.ltn (I : Inv Y A n L F p Ex) {i : ℕ} (h : i ∈ L) : i < n := I.bound i (by simp [h])

theorem Inv.nodupL (I : Inv Y A n L F p Ex) : L.Nodup := (List.nodup_append.1 I.nodup).1

/-- Checked neighbours in order at their start stay in order until one of them ends. -/
theorem checked_mono {u v : Seg} (hlt : Lt u v) (hch : Checked u v) {q : ℚ} (h1 : u.a ≤ q)
    (h2 : v.a ≤ q) (h3 : q ≤ u.b) (h4 : q ≤ v.b) : u.y q ≤ v.y q := by
  rcases hlt with ⟨hc, -⟩ | ⟨hc, hlt⟩
  · exact (hc.y q).le
  by_contra hq
  push Not at hq
  set m := max u.a v.a with hm
  have hmq : m ≤ q := max_le h1 h2
  have ham : u.a ≤ m := le_max_left _ _
  have hbm : v.a ≤ m := le_max_right _ _
  rcases hlt with hd | ⟨hd, hs⟩
  · -- a common point strictly between
    set d0 := v.y m - u.y m with hd0
    set d1 := u.y q - v.y q with hd1
    have p0 : 0 < d0 := by rw [hd0]; linarith
    have p1 : 0 < d1 := by rw [hd1]; linarith
    have hlt : m < q := by
      rcases hmq.lt_or_eq with h | h
      · exact h
      · rw [← h] at hq; linarith
    have hs : 0 < d0 + d1 := by linarith
    set t := d0 / (d0 + d1) with ht
    have t0 : 0 < t := div_pos p0 hs
    have t1 : t < 1 := (div_lt_one hs).2 (by linarith)
    have tm : t * (d0 + d1) = d0 := div_mul_cancel₀ _ hs.ne'
    set z := m + t * (q - m) with hz
    have z1 : m < z := by
      have : 0 < t * (q - m) := mul_pos t0 (by linarith)
      rw [hz]; linarith
    have z2 : z < q := by
      have : 0 < (1 - t) * (q - m) := mul_pos (by linarith) (by linarith)
      rw [hz]; nlinarith
    have hy : u.y z = v.y z := by
      have e : v.y z - u.y z = d0 - t * (d0 + d1) := by
        simp only [hd0, hd1, hz, Seg.y]; ring
      rw [tm] at e; linarith
    rcases hch z ⟨by linarith, by linarith, by linarith, by linarith, hy⟩ with ⟨h, -⟩ | ⟨h, -⟩
    · rcases h with h | h <;> linarith
    · exact hc h
  · have : v.y q - u.y q = (v.y m - u.y m) + (v.m - u.m) * (q - m) := by simp only [Seg.y]; ring
    have h5 : 0 ≤ (v.m - u.m) * (q - m) := mul_nonneg (by linarith) (by linarith)
    linarith

/-- The sweep line is ordered by ordinates until something ends. -/
theorem Inv.mono (I : Inv Y A n L F p NoEx) {q : ℚ} (hq : p ≤ q) (hb : ∀ i ∈ L, q ≤ (A i).b) :
    L.Pairwise fun u v => (A u).y q ≤ (A v).y q := by
  refine pairwise_of_adj (R := fun u v => (A u).y q ≤ (A v).y q)
    (fun x y z h1 h2 => le_trans h1 h2) ?_
  intro u v huv
  have hu := I.act u huv.mem_left
  have hv := I.act v huv.mem_right
  exact checked_mono (huv.pairwise I.ord) (I.adj u v huv id) (hu.1.trans hq) (hv.1.trans hq)
    (hb u huv.mem_left) (hb v huv.mem_right)

theorem Inv.mono_p (I : Inv Y A n L F p NoEx) : L.Pairwise fun u v => (A u).y p ≤ (A v).y p :=
  I.mono le_rfl fun i hi => (I.act i hi).2

/-- Neighbours through the current point have a common point there. -/
theorem Inv.com_p (I : Inv Y A n L F p Ex) {u v : ℕ} (hu : u ∈ L) (hv : v ∈ L)
    (hy : (A u).y p = (A v).y p) : Com (A u) (A v) p :=
  ⟨(I.act u hu).1, (I.act u hu).2, (I.act v hv).1, (I.act v hv).2, hy⟩

/-- A relation between segments of the sweep line through the current point: enough to check
neighbours. -/
theorem Inv.through (I : Inv Y A n L F p NoEx) {R : ℕ → ℕ → Prop}
    (tr : ∀ x ∈ L, ∀ y ∈ L, ∀ z ∈ L, (A x).y p = Y p → (A y).y p = Y p → (A z).y p = Y p →
      R x y → R y z → R x z)
    (sy : ∀ x ∈ L, ∀ y ∈ L, R x y → R y x)
    (rf : ∀ x ∈ L, R x x)
    (h : ∀ u v, Adj L u v → (A u).y p = Y p → (A v).y p = Y p → R u v) :
    ∀ u ∈ L, ∀ v ∈ L, (A u).y p = Y p → (A v).y p = Y p → R u v := by
  have key : L.Pairwise fun u v => u ∈ L ∧ v ∈ L ∧ (A u).y p ≤ (A v).y p ∧
      ((A u).y p = Y p → (A v).y p = Y p → R u v) := by
    refine pairwise_of_adj ?_ ?_
    · rintro x y z ⟨hx, hy, h1, h2⟩ ⟨-, hz, h3, h4⟩
      refine ⟨hx, hz, h1.trans h3, fun hxp hzp => ?_⟩
      have : (A y).y p = Y p := le_antisymm (by linarith) (by linarith)
      exact tr x hx y hy z hz hxp this hzp (h2 hxp this) (h4 this hzp)
    · intro u v huv
      exact ⟨huv.mem_left, huv.mem_right, huv.pairwise I.mono_p, h u v huv⟩
  intro u hu v hv hup hvp
  by_cases huv : u = v
  · subst huv; exact rf u hu
  · rcases pairwise_or key hu hv huv with g | g
    · exact g.2.2.2 hup hvp
    · exact sy v hv u hu (g.2.2.2 hvp hup)

/-- Once nothing ends at the current point, segments through it either all started before or all
start there. -/
theorem Inv.starts (I : Inv Y A n L F p NoEx) (hne : ∀ i ∈ L, (A i).b ≠ p) {i j : ℕ} (hi : i ∈ L)
    (hj : j ∈ L) (hiy : (A i).y p = Y p) (hja : (A j).a = p) : (A i).a = p := by
  have hjy : (A j).y p = Y p := by rw [← hja]; exact (I.endsY j (I.ltn hj)).1
  have := I.through (R := fun u v => (A u).a = p ↔ (A v).a = p)
    (fun x _ y _ z _ _ _ _ h1 h2 => h1.trans h2) (fun x _ y _ h => h.symm) (fun x _ => Iff.rfl)
    (by
      intro u v huv hu hv
      rcases I.adj u v huv id p (I.com_p huv.mem_left huv.mem_right (hu.trans hv.symm)) with
        ⟨h1, h2⟩ | ⟨-, h⟩
      · have e1 : (A u).a = p := by
          rcases h1 with h | h
          · exact h.symm
          · exact absurd h.symm (hne u huv.mem_left)
        have e2 : (A v).a = p := by
          rcases h2 with h | h
          · exact h.symm
          · exact absurd h.symm (hne v huv.mem_right)
        simp [e1, e2]
      · rw [h])
  exact (this i hi j hj hiy hjy).2 hja

/-- Once nothing ends at the current point, segments passing through it are collinear. -/
theorem Inv.passing (I : Inv Y A n L F p NoEx) (hne : ∀ i ∈ L, (A i).b ≠ p) {i j : ℕ} (hi : i ∈ L)
    (hj : j ∈ L) (hiy : (A i).y p = Y p) (hjy : (A j).y p = Y p) (hia : (A i).a < p) :
    Col (A i) (A j) := by
  have hall : ∀ u ∈ L, (A u).y p = Y p → (A u).a < p := by
    intro u hu huy
    rcases (I.act u hu).1.lt_or_eq with h | h
    · exact h
    · exact absurd (I.starts hne hi hu hiy h) hia.ne
  refine I.through (R := fun u v => Col (A u) (A v))
    (fun x _ y _ z _ _ _ _ h1 h2 => h1.trans h2) (fun x _ y _ h => h.symm) (fun x _ => Col.refl _)
    ?_ i hi j hj hiy hjy
  intro u v huv hu hv
  rcases I.adj u v huv id p (I.com_p huv.mem_left huv.mem_right (hu.trans hv.symm)) with
    ⟨h1, -⟩ | ⟨h, -⟩
  · exfalso
    rcases h1 with h | h
    · exact absurd (hall u huv.mem_left hu) (by rw [← h]; exact lt_irrefl _)
    · exact hne u huv.mem_left h.symm
  · exact h

/-- If nothing starts at the current point and something ends there, then each segment passing
through it overlaps with one which ends there. -/
theorem Inv.ending (I : Inv Y A n L F p NoEx) (hns : ∀ i ∈ L, (A i).a ≠ p) {i j : ℕ} (hi : i ∈ L)
    (hj : j ∈ L) (hiy : (A i).y p = Y p) (hjb : (A j).b = p) :
    ∃ k ∈ L, (A k).b = p ∧ Col (A i) (A k) := by
  have hjy : (A j).y p = Y p := by rw [← hjb]; exact (I.endsY j (I.ltn hj)).2
  have := I.through (R := fun u v => (∃ k ∈ L, (A k).b = p ∧ Col (A u) (A k)) ↔
      (∃ k ∈ L, (A k).b = p ∧ Col (A v) (A k)))
    (fun x _ y _ z _ _ _ _ h1 h2 => h1.trans h2) (fun x _ y _ h => h.symm) (fun x _ => Iff.rfl)
    (by
      intro u v huv hu hv
      have hu' := huv.mem_left
      have hv' := huv.mem_right
      rcases I.adj u v huv id p (I.com_p hu' hv' (hu.trans hv.symm)) with
        ⟨h1, h2⟩ | ⟨h, -⟩
      · have e1 : (A u).b = p := by
          rcases h1 with h | h
          · exact absurd h.symm (hns u hu')
          · exact h.symm
        have e2 : (A v).b = p := by
          rcases h2 with h | h
          · exact absurd h.symm (hns v hv')
          · exact h.symm
        exact ⟨fun _ => ⟨v, hv', e2, Col.refl _⟩, fun _ => ⟨u, hu', e1, Col.refl _⟩⟩
      · exact ⟨fun ⟨k, h1, h2, h3⟩ => ⟨k, h1, h2, h.symm.trans h3⟩,
          fun ⟨k, h1, h2, h3⟩ => ⟨k, h1, h2, h.trans h3⟩⟩)
  exact (this i hi j hj hiy hjy).2 ⟨j, hj, hjb, Col.refl _⟩

/-- Forget exceptions of pairs which have been checked. -/
theorem Inv.weaken (I : Inv Y A n L F p Ex) {Ex' : ℕ → ℕ → Prop}
    (h : ∀ u v, Ex u v → ¬ Ex' u v → Checked (A u) (A v) ∧
      (Col (A u) (A v) → max (A u).a (A v).a < min (A u).b (A v).b → (A u).b = (A v).b)) :
    Inv Y A n L F p Ex' where
  nodup := I.nodup
  bound := I.bound
  proper := I.proper
  wait := I.wait
  act := I.act
  fin := I.fin
  endsY := I.endsY
  crossY := I.crossY
  noOv := I.noOv
  good := I.good
  adj := by
    intro u v huv hex
    by_cases h' : Ex u v
    · exact (h u v h' hex).1
    · exact I.adj u v huv h'
  ord := I.ord
  ph := I.ph
  en := I.en
  ov := by
    intro i hi j hj e1 e2 hc ho hl
    by_cases h1 : Ex i j
    · exact absurd ((h i j h1 e1).2 hc ho) hl.ne
    · by_cases h2 : Ex j i
      · rw [max_comm, min_comm] at ho
        exact absurd ((h j i h2 e2).2 hc.symm ho) hl.ne'
      · exact I.ov i hi j hj h1 h2 hc ho hl
  out := I.out
  fsorted := I.fsorted

/-- Moving on to the next event point. -/
theorem Inv.advance (I : Inv Y A n L F p NoEx) {p' : ℚ} (hp : p < p')
    (hw : ∀ i < n, i ∉ L → i ∉ F → p' ≤ (A i).a) (hb : ∀ i ∈ L, p' ≤ (A i).b) :
    Inv Y A n L F p' NoEx where
  nodup := I.nodup
  bound := I.bound
  proper := I.proper
  wait := hw
  act := fun i hi => ⟨(I.act i hi).1.trans hp.le, hb i hi⟩
  fin := fun i hi => (I.fin i hi).trans hp.le
  endsY := I.endsY
  crossY := I.crossY
  noOv := I.noOv
  good := by
    have hne : ∀ i ∈ L, (A i).b ≠ p := fun i hi h => absurd (hb i hi) (by rw [h]; exact not_le.2 hp)
    intro i hi j hj c hc hcom
    by_cases hcp : c < p
    · exact I.good i hi j hj c hcp hcom
    push Not at hcp
    -- a segment reaching `c` is in the sweep line or finished at `p = c`
    have cls : ∀ i < n, (A i).a ≤ c → c ≤ (A i).b → (i ∈ L) ∨ (i ∈ F ∧ c = p ∧ (A i).b = p) := by
      intro i hi h1 h2
      by_cases hL : i ∈ L
      · exact Or.inl hL
      by_cases hF : i ∈ F
      · have := I.fin i hF
        exact Or.inr ⟨hF, by linarith, by linarith⟩
      · exact absurd (hw i hi hL hF) (by push Not; linarith)
    -- nothing is passing through `p` if something has finished there
    have key : ∀ i ∈ L, ∀ j ∈ F, (A j).b = p → (A i).y p = Y p → (A i).a = p := by
      intro i hi j hj hjb hiy
      rcases (I.act i hi).1.lt_or_eq with h | h
      · obtain ⟨k, hk, hka, -⟩ := I.en i hi h hiy (lt_of_lt_of_le hp (hb i hi)) j hj hjb
        have hkL : k ∈ L := by
          by_contra hkL
          by_cases hkF : k ∈ F
          · have := I.fin k hkF
            have := I.proper k hk
            linarith
          · have := hw k hk hkL hkF
            linarith
        exact I.starts hne hi hkL hiy hka
      · exact h
    rcases cls i hi hcom.1 hcom.2.1 with hiL | ⟨hiF, hcp', hib⟩ <;>
      rcases cls j hj hcom.2.2.1 hcom.2.2.2.1 with hjL | ⟨hjF, hcp'', hjb⟩
    · -- both are in the sweep line
      rcases hcp.lt_or_eq with hlt | heq
      · -- strictly between: collinear
        have hcol : Col (A i) (A j) := by
          by_cases hij : i = j
          · subst hij; exact Col.refl _
          have key2 : L.Pairwise fun u v => (A u).y c < (A v).y c ∨ Col (A u) (A v) := by
            refine pairwise_of_adj ?_ ?_
            · rintro x y z (h1 | h1) (h2 | h2)
              · exact Or.inl (h1.trans h2)
              · exact Or.inl (by rw [← h2.y]; exact h1)
              · exact Or.inl (by rw [h1.y]; exact h2)
              · exact Or.inr (h1.trans h2)
            · intro u v huv
              have hmono := huv.pairwise (I.mono (q := c) hlt.le (fun i hi => hc.le.trans (hb i hi)))
              by_cases hcol : Col (A u) (A v)
              · exact Or.inr hcol
              left
              refine lt_of_le_of_ne hmono ?_
              intro heq
              have hu := I.act u huv.mem_left
              have hv := I.act v huv.mem_right
              have hub := hb u huv.mem_left
              have hvb := hb v huv.mem_right
              rcases I.adj u v huv id c ⟨by linarith, by linarith, by linarith, by linarith, heq⟩ with
                ⟨h, -⟩ | ⟨h, -⟩
              · rcases h with h | h <;> linarith
              · exact hcol h
          rcases pairwise_or key2 hiL hjL hij with (h | h) | (h | h)
          · exact absurd hcom.2.2.2.2 h.ne
          · exact h
          · exact absurd hcom.2.2.2.2 h.ne'
          · exact h.symm
        right
        have hi' := I.act i hiL
        have hj' := I.act j hjL
        have hib := hb i hiL
        have hjb := hb j hjL
        exact ⟨⟨by linarith, by linarith⟩, ⟨by linarith, by linarith⟩, hcol⟩
      · subst heq
        have hib := lt_of_lt_of_le hp (hb i hiL)
        have hjb := lt_of_lt_of_le hp (hb j hjL)
        by_cases hcol : Col (A i) (A j)
        · rcases (I.act i hiL).1.lt_or_eq with h | h
          · rcases (I.act j hjL).1.lt_or_eq with g | g
            · exact Or.inr ⟨⟨h, hib⟩, ⟨g, hjb⟩, hcol⟩
            · left
              have hiy : (A i).y p = Y p := by
                rw [hcom.2.2.2.2, ← g]; exact (I.endsY j hj).1
              exact ⟨Or.inl (I.starts hne hiL hjL hiy g).symm, Or.inl g.symm⟩
          · left
            have hjy : (A j).y p = Y p := by
              rw [← hcom.2.2.2.2, ← h]; exact (I.endsY i hi).1
            exact ⟨Or.inl h.symm, Or.inl (I.starts hne hjL hiL hjy h).symm⟩
        · have hiy : (A i).y p = Y p := I.crossY i hi j hj hcol p hcom
          have hjy : (A j).y p = Y p := hcom.2.2.2.2 ▸ hiy
          rcases (I.act i hiL).1.lt_or_eq with h | h
          · exact absurd (I.passing hne hiL hjL hiy hjy h) hcol
          · left
            exact ⟨Or.inl h.symm, Or.inl (I.starts hne hjL hiL hjy h).symm⟩
    · left
      subst hcp''
      have hiy : (A i).y c = Y c := by
        rw [hcom.2.2.2.2]
        nth_rewrite 1 [← hjb]; rw [(I.endsY j hj).2, hjb]
      exact ⟨Or.inl (key i hiL j hjF hjb hiy).symm, Or.inr hjb.symm⟩
    · left
      subst hcp'
      have hjy : (A j).y c = Y c := by
        rw [← hcom.2.2.2.2]
        nth_rewrite 1 [← hib]; rw [(I.endsY i hi).2, hib]
      exact ⟨Or.inr hib.symm, Or.inl (key j hjL i hiF hib hjy).symm⟩
    · left
      subst hcp'
      exact ⟨Or.inr hib.symm, Or.inr hjb.symm⟩
  adj := I.adj
  ord := I.ord
  ph := fun j hj hja => absurd ((I.act j hj).1) (by rw [hja]; exact not_le.2 hp)
  en := fun i _ _ _ _ j hj hjb => absurd (I.fin j hj) (by rw [hjb]; exact not_le.2 hp)
  ov := I.ov
  out := fun k hk hkb => absurd (I.fin k hk) (by rw [hkb]; exact not_le.2 hp)
  fsorted := I.fsorted

end Clipping.Sweep

import Verif.Lemmas.Plane.Solid
import Verif.Model.Holeless

/-!
# The contours traced by `events_to_regions`
-/

namespace Clipping

open Sweep

namespace Darts

variable {D : Darts}

theorem not_inSector_self (f r : Point) : ¬ InSector f r r := by
  have z : ∀ a : Point, det a a = 0 := fun a => by unfold det; ring
  unfold InSector
  rw [z]
  rintro (⟨-, -, h⟩ | ⟨h, h' | h'⟩ | ⟨h, h'⟩) <;> linarith

/-- The edges of a way end where others start, but the last one. -/
theorem way_stop {a b : Point} : ∀ {l : List ℕ}, D.IsWay a l b → ∀ i ∈ l, D.key (D.opp i) ∈ l.map D.key ∨ l.getLast? = some i := by
  intro l
  induction l generalizing a with
  | nil => intro _ i hi; cases hi
  | cons x l ih =>
    intro hw i hi
    obtain ⟨-, h2⟩ := hw
    cases l with
    | nil =>
      rw [List.mem_singleton] at hi
      subst hi
      exact Or.inr rfl
    | cons y l =>
      rcases List.mem_cons.1 hi with rfl | hi
      · refine Or.inl ?_
        rw [← h2.1]; simp
      · rcases ih h2 i hi with h | h
        · exact Or.inl (List.mem_cons_of_mem _ h)
        · exact Or.inr (by rw [List.getLast?_cons_cons]; exact h)

theorem mem_rest_snoc {F : Finset ℕ} {R : List ℕ} {j i : ℕ} :
    i ∈ D.rest F (R ++ [j]) ↔ i ∈ D.rest F R ∧ i ≠ j ∧ D.opp i ≠ j := by
  rw [mem_rest, mem_rest]
  simp only [List.mem_append, List.mem_singleton]
  tauto

/-- The walk along a face without holes does not come back to a vertex. -/
theorem Walk.fresh {F₀ F : Finset ℕ} {nx : ℕ → ℕ} {d k : ℕ} {R : List ℕ} {pos : Point → Option ℕ} (W : D.Walk nx d R pos k)
    (S : D.Steps F nx) (h : D.Remains F₀ F) (hs : D.Solid F₀) (hd : D.First F d)
    (hne : D.key (D.opp (nx^[k] d)) ≠ D.key d) : D.key (D.opp (nx^[k] d)) ∉ R.map D.key := by
  intro hm
  obtain ⟨x, hx, hk⟩ := List.mem_map.1 hm
  obtain ⟨p, hp, rfl⟩ := List.mem_iff_getElem.1 hx
  have p0 : 0 < p := by
    rcases Nat.eq_zero_or_pos p with rfl | h0
    · have h0 := W.head
      rw [List.head?_eq_getElem?, List.getElem?_eq_getElem hp] at h0
      rw [Option.some.inj h0] at hk
      exact absurd hk.symm hne
    · exact h0
  have L := W.loop S hd.mem hp hk
  have sub : ∀ i ∈ R.drop p, i ∈ R := fun i hi => List.mem_of_mem_drop hi
  have past : ∀ i ∈ R.drop p, ∃ j ≤ k, i = nx^[j] d := fun i hi => W.past i (sub i hi)
  have hdR : R[0]'(by omega) = d := by
    have h0 := W.head
    rw [List.head?_eq_getElem?, List.getElem?_eq_getElem (by omega)] at h0
    exact Option.some.inj h0
  refine h.loop_first hs hd L (fun i hi => W.mem S hd.mem (sub i hi)) ?_ ?_ ?_
  · intro i hi
    obtain ⟨j, -, rfl⟩ := past i hi
    exact S.face hd.mem j
  · intro hdL
    obtain ⟨t, ht, e⟩ := List.mem_iff_getElem.1 hdL
    rw [List.getElem_drop] at e
    have nd : R.Nodup := W.keys.of_map
    have := (List.Nodup.getElem_inj_iff nd (hi := by rw [List.length_drop] at ht; omega) (hj := by omega)).1 (e.trans hdR.symm)
    omega
  · intro hdL
    obtain ⟨j, -, e⟩ := past _ hdL
    exact S.no_opp hd.mem 0 j e

end Darts

namespace Selected

open Darts

variable {h : Heap ShapedData} {events : List Ev}

/-- The next event on a walk which has not come to the vertex before. -/
theorem next_fresh (S : Selected h events) {processed : ℕ → Bool} {F : Finset ℕ} {nx : ℕ → ℕ} (N : S.darts.Steps F nx)
    {R : List ℕ} {a : Point} {c : ℕ} (hc : c ∈ F) (hw : S.darts.IsWay a R (S.darts.key (S.darts.opp c))) (last : R.getLast? = some c)
    (hp : ∀ i < S.darts.n, i ∈ S.darts.rest F R ↔ processed i = false)
    (fresh : S.darts.key (S.darts.opp c) ∉ R.map S.darts.key) :
    nextEventId (eventsToConnectivity h (sortEvents h events)) processed (S.darts.opp c) (sortEvents h events).length
      (S.darts.opp c) = .ok (some (nx c)) := by
  have ho := N.closed.opp c hc
  have lo := N.closed.lt _ ho
  have key : ∀ x ∈ F, S.darts.key x = S.darts.key (S.darts.opp c) → x = S.darts.opp c ∨ x ∈ S.darts.rest F R := by
    intro x hx hk
    by_cases hxc : x = S.darts.opp c
    · exact Or.inl hxc
    · refine Or.inr (mem_rest.2 ⟨hx, ?_, ?_⟩)
      · intro hxR
        exact fresh (hk ▸ List.mem_map_of_mem hxR)
      · intro hxR
        rcases way_stop hw _ hxR with h1 | h1
        · rw [S.darts.opp_opp x (N.closed.lt x hx), hk] at h1
          exact fresh h1
        · rw [last] at h1
          apply hxc
          rw [Option.some.inj h1, S.darts.opp_opp x (N.closed.lt x hx)]
  obtain ⟨x, hx, kx, xo⟩ := N.closed.another N.even ho
  have hx' : x ∈ S.darts.rest F R := (key x hx kx).resolve_left xo
  obtain ⟨j, h1, h2⟩ := S.next (rest_closed N.closed) hp lo ⟨x, hx', kx, xo⟩
  have h3 : S.darts.Next F (S.darts.opp c) j := by
    refine ⟨(mem_rest.1 h2.mem).1, h2.key, h2.ne, ?_⟩
    intro k hk hkk
    rcases key k hk hkk with rfl | hk'
    · exact not_inSector_self _ _
    · exact h2.empty k hk' hkk
  rw [h1, h3.unique N.closed lo (N.next c hc)]

theorem traceRegion_traced (S : Selected h events) {F₀ F : Finset ℕ} {nx : ℕ → ℕ} (N : S.darts.Steps F nx)
    (Rm : S.darts.Remains F₀ F) (hs : S.darts.Solid F₀) {d : ℕ} (hd : S.darts.First F d) :
    ∀ (fuel k : ℕ) (R : List ℕ) (pos : Point → Option ℕ) (processed : ℕ → Bool), S.darts.Walk nx d R pos k →
      (∀ i < S.darts.n, i ∈ S.darts.rest F R ↔ processed i = false) → F.card ≤ fuel + k →
      ∃ R' processed', traceRegion h (sortEvents h events) (eventsToConnectivity h (sortEvents h events))
        (S.darts.key d) fuel (ev h events (nx^[k] d)) (S.darts.opp (nx^[k] d)) processed (R.map S.darts.key) =
          .ok (R'.map S.darts.key, processed') ∧ S.darts.Traced F d R' ∧
        ∀ i < S.darts.n, i ∈ S.darts.rest F R' ↔ processed' i = false := by
  intro fuel
  induction fuel with
  | zero =>
    intro k R pos processed W hp hf
    have := W.bound N hd.mem
    omega
  | succ fuel ih =>
    intro k R pos processed W hp hf
    have hk := N.mem hd.mem k
    have lk := N.closed.lt _ hk
    have hstop := S.darts_stop lk
    rw [traceRegion]
    dsimp only
    rw [← hstop]
    split_ifs with he
    · exact ⟨R, processed, rfl, W.finish N hd.mem he, hp⟩
    · have fresh := W.fresh N Rm hs hd he
      rw [S.next_fresh N hk W.way W.last hp fresh]
      dsimp only
      have hpos : pos (S.darts.key (S.darts.opp (nx^[k] d))) = none := by
        cases hq : pos (S.darts.key (S.darts.opp (nx^[k] d))) with
        | none => rfl
        | some p =>
          rcases W.found _ p hq with ⟨hp', e⟩ | st
          · exact absurd (List.mem_map.2 ⟨_, List.getElem_mem hp', e⟩) fresh
          · exact absurd st (W.not_stale N hd.mem)
      have W₁ := W.extend N hd.mem he hpos
      have hj := N.mem hd.mem (k + 1)
      rw [Function.iterate_succ_apply'] at hj
      have lj := N.closed.lt _ hj
      obtain ⟨R', processed', h1, h2, h3⟩ := ih (k + 1) _ _ (markProcessed processed (nx (nx^[k] d))
        (S.darts.opp (nx (nx^[k] d)))) W₁ (by
          intro i hi
          rw [mem_rest_snoc, hp i hi]
          unfold markProcessed
          by_cases e1 : i = nx (nx^[k] d)
          · subst e1; simp
          · rw [Function.update_of_ne e1]
            by_cases e2 : i = S.darts.opp (nx (nx^[k] d))
            · subst e2
              rw [Function.update_self, S.darts.opp_opp _ lj]
              simp
            · rw [Function.update_of_ne e2]
              have e3 : S.darts.opp i ≠ nx (nx^[k] d) := by
                intro e
                apply e2
                rw [← e, S.darts.opp_opp i hi]
              simp [e1, e3]) (by omega)
      refine ⟨R', processed', ?_, h2, h3⟩
      rw [List.map_append, List.map_singleton, Function.iterate_succ_apply', N.key hk] at h1
      exact h1

/-- The contours traced so far and the remaining edges. -/
structure RegionsInv (S : Selected h events) (processed : ℕ → Bool) (Rs : List (List ℕ)) (F : Finset ℕ) : Prop where
  traces : S.darts.Traces (Finset.range S.darts.n) Rs F
  proc : ∀ i < S.darts.n, i ∈ F ↔ processed i = false
  remains : S.darts.Remains (Finset.range S.darts.n) F
  solid : ∀ R ∈ Rs, ∀ z, z ∉ segsPts (S.darts.edges (Finset.range S.darts.n)) → Inside (R.map S.darts.seg) z →
    Inside (S.darts.edges (Finset.range S.darts.n)) z

theorem traceRegions_ok (S : Selected h events) (hs : S.darts.Solid (Finset.range S.darts.n)) (k : ℕ) :
    ∀ (a : ℕ) (processed : ℕ → Bool) (Rs : List (List ℕ)) (F : Finset ℕ), a + k = S.darts.n →
      (∀ i < a, processed i = true) → RegionsInv S processed Rs F →
      ∃ contours processed' Rs',
        traceRegions h (sortEvents h events) (eventsToConnectivity h (sortEvents h events)) (List.range' a k) processed =
          .ok contours ∧ contours = Rs'.map (fun R => ⟨S.traced R⟩) ∧ RegionsInv S processed' (Rs ++ Rs') ∅ := by
  induction k with
  | zero =>
    intro a processed Rs F ha hdone I
    refine ⟨[], processed, [], rfl, rfl, ?_⟩
    have : F = ∅ := by
      rw [Finset.eq_empty_iff_forall_notMem]
      intro x hx
      have hl := I.remains.closed.lt x hx
      have := (I.proc x hl).1 hx
      rw [hdone x (by omega)] at this
      cases this
    rw [List.append_nil, ← this]
    exact I
  | succ k ih =>
    intro a processed Rs F ha hdone I
    rw [List.range'_succ]
    simp only [traceRegions]
    cases hp : processed a with
    | true =>
      rw [if_pos rfl]
      refine ih (a + 1) processed Rs F (by omega) ?_ I
      intro i hi
      rcases Nat.lt_succ_iff_lt_or_eq.1 hi with h1 | h1
      · exact hdone i h1
      · rw [h1]; exact hp
    | false =>
      rw [if_neg (by simp)]
      have la : a < S.darts.n := by omega
      have hd : a ∈ F := (I.proc a la).2 hp
      have least : ∀ i ∈ F, a ≤ i := by
        intro i hi
        by_contra hlt
        have := (I.proc i (I.remains.closed.lt i hi)).1 hi
        rw [hdone i (by omega)] at this
        cases this
      have first := I.remains.first hd least
      obtain ⟨nx, N, -⟩ := S.exists_steps I.remains.closed I.remains.even I.proc
      obtain ⟨R, processed', h1, T, h3⟩ := S.traceRegion_traced N I.remains hs first (sortEvents h events).length 0 [a] _
        (markProcessed processed a (S.darts.opp a)) Walk.init (by
          intro i hi
          have : ([a] : List ℕ) = [] ++ [a] := rfl
          rw [this, mem_rest_snoc, mem_rest, I.proc i hi]
          unfold markProcessed
          by_cases e1 : i = a
          · subst e1; simp
          · rw [Function.update_of_ne e1]
            by_cases e2 : i = S.darts.opp a
            · subst e2
              rw [Function.update_self, S.darts.opp_opp _ la]
              simp
            · rw [Function.update_of_ne e2]
              have e3 : S.darts.opp i ≠ a := by
                intro e
                apply e2
                rw [← e, S.darts.opp_opp i hi]
              simp [e1, e3]) (by
          have hsub : F ⊆ Finset.range S.darts.n := I.remains.sub
          have := Finset.card_le_card hsub
          rw [Finset.card_range] at this
          exact this)
      have I' : RegionsInv S processed' (Rs ++ [R]) (S.darts.rest F R) := by
        refine ⟨.snoc I.traces hd least T, h3, I.remains.next hs first T, ?_⟩
        intro R' hR' z hz hi
        rcases List.mem_append.1 hR' with h4 | h4
        · exact I.solid R' h4 z hz hi
        · rw [List.mem_singleton] at h4
          subst h4
          exact I.remains.solid hs first T.loop T.mem T.face hz hi
      obtain ⟨contours, processed'', Rs', g1, g2, g3⟩ := ih (a + 1) processed' (Rs ++ [R]) _ (by omega) (by
        intro i hi
        have li : i < S.darts.n := by omega
        have : i ∉ S.darts.rest F R := by
          rw [mem_rest]
          rintro ⟨f1, f2, -⟩
          rcases Nat.lt_succ_iff_lt_or_eq.1 hi with h7 | h7
          · have := (I.proc i li).1 f1
            rw [hdone i h7] at this
            cases this
          · subst h7
            exact f2 T.start
        rw [h3 i li] at this
        simpa using this) I'
      refine ⟨⟨S.traced R⟩ :: contours, processed'', R :: Rs', ?_, by rw [g2]; rfl, by rwa [List.append_assoc] at g3⟩
      have h1' : traceRegion h (sortEvents h events) (eventsToConnectivity h (sortEvents h events))
        (h.evStart ((sortEvents h events).getD a (.left 0))) (sortEvents h events).length ((sortEvents h events).getD a (.left 0))
        (eventId (sortEvents h events) (h.opposite ((sortEvents h events).getD a (.left 0))))
        (markProcessed processed a (eventId (sortEvents h events) (h.opposite ((sortEvents h events).getD a (.left 0)))))
          [h.evStart ((sortEvents h events).getD a (.left 0))] = .ok (R.map S.darts.key, processed') := h1
      rw [h1']
      dsimp only
      rw [g1]
      rfl

/-- `events_to_regions` succeeds. -/
theorem eventsToRegions_ok {h : Heap ShapedData} {events : List Ev} (S : Selected h (events.filter (fromResult h)))
    (hs : S.darts.Solid (Finset.range S.darts.n)) :
    ∃ processed Rs, eventsToRegions h events = .ok (Rs.map fun R => ⟨S.traced R⟩) ∧ RegionsInv S processed Rs ∅ := by
  obtain ⟨contours, processed, Rs, h1, rfl, h3⟩ := S.traceRegions_ok hs S.darts.n 0 (fun _ => false) []
    (Finset.range S.darts.n) (by omega) (by simp) ⟨.nil, by simp, .init S.darts_start, by simp⟩
  refine ⟨processed, Rs, ?_, h3⟩
  unfold eventsToRegions
  dsimp only
  rw [List.range_eq_range']
  exact h1

end Selected

end Clipping

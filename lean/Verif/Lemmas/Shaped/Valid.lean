import Verif.Lemmas.Shaped.Nested

/-!
# The polygons assembled from the traced contours are valid
-/

namespace Clipping

open Sweep Darts

section

variable {ι : Type} {l : List ι} {f : ι → List Segment}

theorem inside_flatMap_congr {q z : Point} (h : ∀ i ∈ l, (Inside (f i) q ↔ Inside (f i) z)) :
    Inside (l.flatMap f) q ↔ Inside (l.flatMap f) z := by
  induction l with
  | nil => exact iff_of_false (inside_nil q) (inside_nil z)
  | cons i l ih =>
    rw [List.flatMap_cons, inside_append, inside_append, h i (by simp), ih fun j hj => h j (by simp [hj])]

theorem inside_flatMap_unique {q : Point} (nd : l.Nodup) (h : ∀ i ∈ l, ∀ j ∈ l, Inside (f i) q → Inside (f j) q → i = j) :
    Inside (l.flatMap f) q ↔ ∃ i ∈ l, Inside (f i) q := by
  induction l with
  | nil => simp [inside_nil]
  | cons i l ih =>
    rw [List.nodup_cons] at nd
    rw [List.flatMap_cons, inside_append, ih nd.2 fun a ha b hb => h a (by simp [ha]) b (by simp [hb])]
    by_cases hi : Inside (f i) q
    · have : ¬ ∃ j ∈ l, Inside (f j) q := by
        rintro ⟨j, hj, hq⟩
        have := h i (by simp) j (by simp [hj]) hi hq
        exact nd.1 (this ▸ hj)
      simp [hi, this]
    · simp [hi]

end

namespace Darts.Traced₀

variable {D : Darts} {F₀ F : Finset ℕ} {Rs : List (List ℕ)}

theorem anc_lt {i j : ℕ} (h : i ∈ D.anc Rs j) : i < j := (mem_anc.1 h).1

theorem insert_anc_inj {p p' : ℕ} (h : insert p (D.anc Rs p) = insert p' (D.anc Rs p')) : p = p' := by
  have h1 : p ∈ insert p' (D.anc Rs p') := by rw [← h]; simp
  have h2 : p' ∈ insert p (D.anc Rs p) := by rw [h]; simp
  rw [Finset.mem_insert] at h1 h2
  rcases h1 with h1 | h1
  · exact h1
  · rcases h2 with h2 | h2
    · exact h2.symm
    · have := anc_lt h1
      have := anc_lt h2
      omega

/-- Between a contour and one within it there is one directly within the first. -/
theorem exists_next (T : D.Traced₀ F₀ Rs F) {p k : ℕ} (hk : k < Rs.length) (hp : p ∈ D.anc Rs k) :
    ∃ j ∈ insert k (D.anc Rs k), D.anc Rs j = insert p (D.anc Rs p) := by
  classical
  obtain ⟨j, hj, hmin⟩ := ((insert k (D.anc Rs k)).filter fun i => p ∈ D.anc Rs i).exists_min_image id
    ⟨k, by simp [hp]⟩
  rw [Finset.mem_filter] at hj
  obtain ⟨j1, j2⟩ := hj
  have jl : j < Rs.length := by
    rcases Finset.mem_insert.1 j1 with e | e
    · omega
    · have := anc_lt e; omega
  have jk : ∀ i ∈ D.anc Rs j, i ∈ D.anc Rs k := by
    intro i hi
    rcases Finset.mem_insert.1 j1 with e | e
    · rw [← e]; exact hi
    · exact T.anc_trans hk hi e
  refine ⟨j, j1, ?_⟩
  ext i
  rw [Finset.mem_insert]
  constructor
  · intro hi
    rcases Nat.lt_trichotomy i p with h | h | h
    · exact Or.inr (T.anc_chain jl hi j2 h)
    · exact Or.inl h
    · exfalso
      have h1 := T.anc_chain jl j2 hi h
      have := hmin i (by rw [Finset.mem_filter, Finset.mem_insert]; exact ⟨Or.inr (jk i hi), h1⟩)
      simp only [id] at this
      have := anc_lt hi
      omega
  · rintro (rfl | hi)
    · exact j2
    · exact T.anc_trans jl hi j2

/-- Contours with the same contours around them are apart. -/
theorem apart (T : D.Traced₀ F₀ Rs F) {i j : ℕ} (hij : i < j) (hj : j < Rs.length) (hn : i ∉ D.anc Rs j) :
    Apart ((nth Rs i).map D.seg) ((nth Rs j).map D.seg) ∧ Apart ((nth Rs j).map D.seg) ((nth Rs i).map D.seg) := by
  have hb := (T.laminar hij hj).resolve_left fun hw => hn (mem_anc.2 ⟨hij, hw⟩)
  have hc : ∀ (A : List Segment) (m : Point), m ∈ regionPts A ↔ m ∈ segsPts A ∨ Inside A m := fun A m => Iff.rfl
  constructor
  · intro m hm off hin
    by_cases h1 : m ∈ segsPts ((nth Rs i).map D.seg)
    · exact T.edge_outside hij hj h1 off hin
    · exact hb.inside m h1 off hin (((hc _ m).1 hm).resolve_left h1)
  · intro m hm off
    by_cases h1 : m ∈ segsPts ((nth Rs j).map D.seg)
    · exact hb.edge m h1 off
    · exact hb.inside m off h1 (((hc _ m).1 hm).resolve_left h1)

end Darts.Traced₀

namespace Selected

variable {h : Heap ShapedData} {events : List Ev} {S : Selected h events} {processed : ℕ → Bool} {m : Marks} {r : Relations}
  {contours : List Contour} {Rs : List (List ℕ)} {F : Finset ℕ} {ptr : ℕ → Option (ℕ × Bool)}

/-- the contours of a polygon -/
def fam (r : Relations) (p : ℕ) : List ℕ := p :: r.holes.getD p []

/-- the edges of contours before collinear vertices are dropped -/
abbrev loops (S : Selected h events) (Rs : List (List ℕ)) (l : List ℕ) : List Segment :=
  l.flatMap fun j => (nth Rs j).map S.darts.seg

namespace TraceInv

theorem hole_iff (I : TraceInv S processed m r contours Rs F ptr) (P : Parity h events) {p : ℕ} (hp : p < Rs.length)
    (hi : r.areInternal.getD p false = false) {j : ℕ} :
    j ∈ r.holes.getD p [] ↔ j < Rs.length ∧ S.darts.anc Rs j = insert p (S.darts.anc Rs p) := by
  classical
  rw [I.rel.mem_holes hp]
  constructor
  · rintro ⟨h1, h2⟩
    exact ⟨h1, (I.nested P j h1).2 p h2⟩
  · rintro ⟨h1, h2⟩
    refine ⟨h1, ?_⟩
    have np : ¬ Odd (S.darts.anc Rs p).card := by
      rw [← (I.nested P p hp).1, hi]; simp
    have self : p ∉ S.darts.anc Rs p := fun hh => lt_irrefl _ (Traced₀.anc_lt hh)
    have hj : r.areInternal.getD j false = true := by
      rw [(I.nested P j h1).1, h2, Finset.card_insert_of_notMem self, Nat.odd_add_one]
      exact np
    obtain ⟨-, p', -, h3, -⟩ := I.rel.internal j h1 hj
    have h4 := (I.nested P j h1).2 p' h3
    rw [h2] at h4
    rw [h3, ← Traced₀.insert_anc_inj h4]

theorem fam_lt (I : TraceInv S processed m r contours Rs F ptr) {p : ℕ} (hp : p < Rs.length) {j : ℕ}
    (hj : j ∈ fam r p) : j < Rs.length := by
  unfold fam at hj
  rw [List.mem_cons, I.rel.mem_holes hp] at hj
  rcases hj with rfl | hj
  · exact hp
  · exact hj.1

theorem fam_nodup (I : TraceInv S processed m r contours Rs F ptr) {p : ℕ} (hp : p < Rs.length) : (fam r p).Nodup := by
  unfold fam
  rw [List.nodup_cons]
  refine ⟨?_, ?_⟩
  · intro hh
    have := (I.rel.parent_external hp ((I.rel.mem_holes hp).1 hh).2).1
    omega
  · rw [I.rel.holes p hp]; exact List.nodup_range.filter _

/-- Points inside of a polygon are those whose innermost contour is its border. -/
theorem fam_inside (I : TraceInv S processed m r contours Rs F ptr) (P : Parity h events) {p : ℕ} (hp : p < Rs.length)
    (hi : r.areInternal.getD p false = false) {q : Point} (hq : q ∉ segsPts (S.darts.edges (Finset.range S.darts.n)))
    (hin : Inside (S.loops Rs (fam r p)) q) : Traced₀.around S.darts Rs q = insert p (S.darts.anc Rs p) := by
  classical
  have T := I.traced₀
  have hole := fun j => I.hole_iff P hp hi (j := j)
  have nd := (List.nodup_cons.1 (I.fam_nodup hp)).2
  unfold loops fam at hin
  rw [List.flatMap_cons, inside_append, inside_flatMap_unique nd ?_] at hin
  · have inP : S.darts.InC Rs p q := by
      by_contra hcon
      have : ∃ j ∈ r.holes.getD p [], Inside ((nth Rs j).map S.darts.seg) q := by
        by_contra hex
        exact hcon (hin.2 hex)
      obtain ⟨j, hj, hjq⟩ := this
      obtain ⟨h1, h2⟩ := (hole j).1 hj
      exact hcon (T.of_within h1 hq (by rw [h2]; simp) hjq)
    have none := hin.1 inP
    obtain ⟨k, k1, k2, k3⟩ := T.around_eq hq ⟨p, Traced₀.mem_around.2 ⟨hp, inP⟩⟩
    have pk : p ∈ insert k (S.darts.anc Rs k) := by
      rw [← k3]; exact Traced₀.mem_around.2 ⟨hp, inP⟩
    rcases Finset.mem_insert.1 pk with e | e
    · rw [k3, e]
    · exfalso
      obtain ⟨j, j1, j2⟩ := T.exists_next k1 e
      rw [← k3] at j1
      obtain ⟨j3, j4⟩ := Traced₀.mem_around.1 j1
      exact none ⟨j, (hole j).2 ⟨j3, j2⟩, j4⟩
  · intro i hi j hj hiq hjq
    obtain ⟨i1, i2⟩ := (hole i).1 hi
    obtain ⟨j1, j2⟩ := (hole j).1 hj
    rcases Nat.lt_trichotomy i j with hlt | hlt | hlt
    · have := T.within_of_both hlt j1 hq hiq hjq
      rw [j2, ← i2] at this
      exact absurd (Traced₀.anc_lt this) (lt_irrefl _)
    · exact hlt
    · have := T.within_of_both hlt i1 hq hjq hiq
      rw [i2, ← j2] at this
      exact absurd (Traced₀.anc_lt this) (lt_irrefl _)

/-- Polygons do not have common interior points. -/
theorem fam_apart (I : TraceInv S processed m r contours Rs F ptr) (hF : F = ∅) (P : Parity h events) {p p' : ℕ}
    (hp : p < Rs.length) (hi : r.areInternal.getD p false = false) (hp' : p' < Rs.length)
    (hi' : r.areInternal.getD p' false = false) (hne : p ≠ p') : Apart (S.loops Rs (fam r p)) (S.loops Rs (fam r p')) := by
  classical
  subst hF
  have T := I.traced₀
  -- off all edges
  have offAll : ∀ q, q ∉ segsPts (S.darts.edges (Finset.range S.darts.n)) → Inside (S.loops Rs (fam r p)) q →
      ¬ Inside (S.loops Rs (fam r p')) q := by
    intro q hq h1 h2
    have e1 := I.fam_inside P hp hi hq h1
    rw [I.fam_inside P hp' hi' hq h2] at e1
    exact hne (Traced₀.insert_anc_inj e1.symm)
  intro q hq off hin
  by_cases hall : q ∈ segsPts (S.darts.edges (Finset.range S.darts.n))
  · obtain ⟨x, hx, hqx⟩ := T.start.closed.mem_pts.1 hall
    have lx := T.start.closed.lt x hx
    -- an edge of a contour with this point
    have pick : ∃ c y, c < Rs.length ∧ y ∈ nth Rs c ∧ q ∈ (S.darts.seg y).pts ∧
        (c ∈ fam r p ∨ q ∉ segsPts (S.loops Rs (fam r p))) := by
      by_cases hpp : q ∈ segsPts (S.loops Rs (fam r p))
      · obtain ⟨c, hc, g, hg, hqg⟩ := segsPts_flatMap.1 hpp
        obtain ⟨y, hy, rfl⟩ := List.mem_map.1 hg
        exact ⟨c, y, I.fam_lt hp hc, hy, hqg, Or.inl hc⟩
      · obtain ⟨-, -, -, cover, -, -⟩ := T.traces.inv T.start
        rcases cover x hx with h1 | ⟨c, hc, h1 | h1⟩
        · simp at h1
        · exact ⟨c, x, hc, h1, hqx, Or.inr hpp⟩
        · refine ⟨c, _, hc, h1, ?_, Or.inr hpp⟩
          rw [seg_opp lx, Segment.swap_pts]; exact hqx
    obtain ⟨c, y, hc, hy, hqy, hor⟩ := pick
    have ly := T.lt hc hy
    have offl : ∀ l ∈ fam r p', q ∉ segsPts ((nth Rs l).map S.darts.seg) := fun l hl hh => off (segsPts_flatMap.2 ⟨l, hl, hh⟩)
    have cell : ∀ l < Rs.length, q ∉ segsPts ((nth Rs l).map S.darts.seg) → ∀ {σ z},
        SideOf (S.darts.edges (Finset.range S.darts.n)) (S.darts.seg y) σ z →
        (Inside ((nth Rs l).map S.darts.seg) q ↔ Inside ((nth Rs l).map S.darts.seg) z) := by
      intro l hl hql σ z hz
      have hlc : c ≠ l := by
        rintro rfl
        exact hql ⟨_, List.mem_map_of_mem hy, hqy⟩
      have dis := T.disjoint hc hl hlc hy
      exact (side_of_edge T.start.closed (fun _ hh => T.mem hl hh) (T.mem hc hy) dis.1 dis.2 hqy hql hz).inside_iff
        (T.loop hl).proper (T.loop hl).even
    -- a side of the edge in the first polygon
    have zex : ∃ σ z, SideOf (S.darts.edges (Finset.range S.darts.n)) (S.darts.seg y) σ z ∧
        (Inside (S.loops Rs (fam r p)) z ∨ Traced₀.around S.darts Rs z = insert p (S.darts.anc Rs p)) := by
      rcases hor with hcp | hoff
      · unfold fam at hcp
        rw [List.mem_cons] at hcp
        rcases hcp with rfl | hcp
        · obtain ⟨z, hz⟩ := T.start.closed.exists_left ly
          refine ⟨1, z, hz, Or.inr ?_⟩
          ext i
          rw [Traced₀.mem_around, Finset.mem_insert]
          constructor
          · rintro ⟨a, b⟩
            exact ((T.left_iff hc hy hz a).1 b).symm
          · intro hh
            have il : i < Rs.length := by
              rcases hh with e | e
              · omega
              · have := Traced₀.anc_lt e; omega
            exact ⟨il, (T.left_iff hc hy hz il).2 hh.symm⟩
        · obtain ⟨c1, c2⟩ := (I.hole_iff P hp hi).1 hcp
          obtain ⟨z, hz⟩ := T.start.closed.exists_right ly
          refine ⟨-1, z, hz, Or.inr ?_⟩
          rw [← c2]
          ext i
          rw [Traced₀.mem_around]
          constructor
          · rintro ⟨a, b⟩
            exact (T.right_iff hc hy hz a).1 b
          · intro hh
            have il : i < Rs.length := (Traced₀.anc_lt hh).trans hc
            exact ⟨il, (T.right_iff hc hy hz il).2 hh⟩
      · obtain ⟨z, hz⟩ := T.start.closed.exists_left ly
        refine ⟨1, z, hz, Or.inl ?_⟩
        have hqin : Inside (S.loops Rs (fam r p)) q := by
          rcases hq with hh | hh
          · exact absurd hh hoff
          · exact hh
        rw [← inside_flatMap_congr (q := q) fun l hl => cell l (I.fam_lt hp hl)
          (fun hh => hoff (segsPts_flatMap.2 ⟨l, hl, hh⟩)) hz]
        exact hqin
    obtain ⟨σ, z, hz, hzin⟩ := zex
    have hin' : Inside (S.loops Rs (fam r p')) z := by
      rw [← inside_flatMap_congr (q := q) fun l hl => cell l (I.fam_lt hp' hl) (offl l hl) hz]
      exact hin
    rcases hzin with h1 | h1
    · exact offAll z hz.off h1 hin'
    · rw [I.fam_inside P hp' hi' hz.off hin'] at h1
      exact hne (Traced₀.insert_anc_inj h1.symm)
  · refine offAll q hall ?_ hin
    rcases hq with hh | hh
    · exact absurd (by
        obtain ⟨l, hl, hql⟩ := segsPts_flatMap.1 hh
        exact sub_pts T.start.closed (fun _ hh => T.mem (I.fam_lt hp hl) hh) hql) hall
    · exact hh

/-- contours and their edges before collinear vertices are dropped -/
theorem contour_same (I : TraceInv S processed m r contours Rs F ptr) {j : ℕ} (hj : j < Rs.length) :
    segsPts (contours.getD j ⟨[]⟩).edges = segsPts ((nth Rs j).map S.darts.seg) ∧
      ∀ q, Inside (contours.getD j ⟨[]⟩).edges q ↔ Inside ((nth Rs j).map S.darts.seg) q := by
  obtain ⟨-, -, E, h1, h2⟩ := I.contour_spec hj
  exact ⟨h1.segsPts_eq.trans h2.segsPts_eq, fun q => (h1.inside_iff q).trans (h2.inside_iff q)⟩

theorem region_same {A B : List Segment} (h1 : segsPts A = segsPts B) (h2 : ∀ q, Inside A q ↔ Inside B q) :
    regionPts A = regionPts B := by
  ext q
  change (q ∈ segsPts A ∨ Inside A q) ↔ (q ∈ segsPts B ∨ Inside B q)
  rw [h1, h2]

theorem apart_same {A B A' B' : List Segment} (h1 : segsPts A = segsPts A') (h2 : ∀ q, Inside A q ↔ Inside A' q)
    (h3 : segsPts B = segsPts B') (h4 : ∀ q, Inside B q ↔ Inside B' q) (h : Apart A' B') : Apart A B := by
  intro q hq off
  rw [region_same h1 h2] at hq
  rw [h3] at off
  rw [h4]
  exact h q hq off

theorem valid (I : TraceInv S processed m r contours Rs F ptr) (hF : F = ∅) (P : Parity h events) :
    ValidPolygons (assemblePolygons r contours) := by
  have O := I.outline hF
  have T := I.traced₀
  have asm := I.rel.assemble I.len
  have edges : ∀ p < Rs.length, segsPts (polygonOf contours r.holes p).edges = segsPts (S.loops Rs (fam r p)) ∧
      ∀ q, Inside (polygonOf contours r.holes p).edges q ↔ Inside (S.loops Rs (fam r p)) q := by
    intro p hp
    have e : (polygonOf contours r.holes p).edges = (fam r p).flatMap fun j => (contours.getD j ⟨[]⟩).edges := by
      unfold polygonOf Polygon.edges fam
      simp only [List.flatMap_cons, List.flatMap_map]
    rw [e]
    constructor
    · ext q
      rw [segsPts_flatMap, segsPts_flatMap]
      constructor
      · rintro ⟨j, hj, hq⟩
        exact ⟨j, hj, by rw [← (I.contour_same (I.fam_lt hp hj)).1]; exact hq⟩
      · rintro ⟨j, hj, hq⟩
        exact ⟨j, hj, by rw [(I.contour_same (I.fam_lt hp hj)).1]; exact hq⟩
    · intro q
      have : ∀ l : List ℕ, (∀ j ∈ l, j < Rs.length) → (Inside (l.flatMap fun j => (contours.getD j ⟨[]⟩).edges) q ↔
          Inside (S.loops Rs l) q) := by
        intro l
        induction l with
        | nil => intro _; exact Iff.rfl
        | cons j l ih =>
          intro hl
          unfold loops
          rw [List.flatMap_cons, List.flatMap_cons, inside_append, inside_append, ih fun i hi => hl i (by simp [hi]),
            (I.contour_same (hl j (by simp))).2]
      exact this _ fun j hj => I.fam_lt hp hj
  refine ⟨?_, O.noOverlap, ?_⟩
  · intro p' hp'
    have hp'' := hp'
    rw [asm] at hp'
    obtain ⟨p, hp, rfl⟩ := List.mem_map.1 hp'
    obtain ⟨p1, p2⟩ := RelOk.mem_borders.1 hp
    have hole := fun j => I.hole_iff P p1 p2 (j := j)
    have hmem : ∀ c ∈ (polygonOf contours r.holes p).holes, ∃ j < Rs.length, S.darts.anc Rs j = insert p (S.darts.anc Rs p) ∧
        contours.getD j ⟨[]⟩ = c := by
      intro c hc
      obtain ⟨j, hj, e⟩ := List.mem_map.1 hc
      obtain ⟨h1, h2⟩ := (hole j).1 hj
      exact ⟨j, h1, h2, e⟩
    obtain ⟨b1, b2⟩ := I.contour_same p1
    have hb : (polygonOf contours r.holes p).border = contours.getD p ⟨[]⟩ := rfl
    have hrg : ∀ (A : List Segment) (m : Point), m ∈ regionPts A ↔ m ∈ segsPts A ∨ Inside A m := fun A m => Iff.rfl
    refine ⟨(O.border _ hp'').1, fun c hc => (O.hole _ hp'' c hc).1, ?_, ?_, ?_, ?_⟩
    · refine O.noOverlap.sublist ?_
      have := (List.singleton_sublist.2 hp'').flatMap Polygon.edges
      simpa using this
    · intro c hc q hq
      obtain ⟨j, j1, j2, rfl⟩ := hmem c hc
      obtain ⟨c1, c2⟩ := I.contour_same j1
      rw [hb, region_same b1 b2]
      rw [region_same c1 c2] at hq
      obtain ⟨hpj, hw⟩ := mem_anc.1 (show p ∈ S.darts.anc Rs j by rw [j2]; simp)
      rw [hrg] at hq ⊢
      by_cases q1 : q ∈ segsPts ((nth Rs p).map S.darts.seg)
      · exact Or.inl q1
      · right
        by_cases q2 : q ∈ segsPts ((nth Rs j).map S.darts.seg)
        · exact hw.edge q q2 q1
        · exact hw.inside q q1 q2 (hq.resolve_left q2)
    · intro c hc q hq off
      obtain ⟨j, j1, j2, rfl⟩ := hmem c hc
      obtain ⟨c1, c2⟩ := I.contour_same j1
      rw [hb, b1] at hq
      rw [c1] at off
      rw [c2]
      obtain ⟨hpj, -⟩ := mem_anc.1 (show p ∈ S.darts.anc Rs j by rw [j2]; simp)
      exact T.edge_outside hpj j1 hq off
    · unfold polygonOf
      rw [List.pairwise_map]
      refine List.Pairwise.imp_of_mem ?_ (List.nodup_cons.1 (I.fam_nodup p1)).2
      intro i j hi hj hij
      obtain ⟨i1, i2⟩ := (hole i).1 hi
      obtain ⟨j1, j2⟩ := (hole j).1 hj
      obtain ⟨s1, s2⟩ := I.contour_same i1
      obtain ⟨t1, t2⟩ := I.contour_same j1
      have key : Apart ((nth Rs i).map S.darts.seg) ((nth Rs j).map S.darts.seg) ∧
          Apart ((nth Rs j).map S.darts.seg) ((nth Rs i).map S.darts.seg) := by
        rcases Nat.lt_or_gt_of_ne hij with hlt | hlt
        · refine T.apart hlt j1 fun hh => ?_
          rw [j2, ← i2] at hh
          exact absurd (Traced₀.anc_lt hh) (lt_irrefl _)
        · refine (T.apart hlt i1 fun hh => ?_).symm
          rw [i2, ← j2] at hh
          exact absurd (Traced₀.anc_lt hh) (lt_irrefl _)
      exact ⟨apart_same s1 s2 t1 t2 key.1, apart_same t1 t2 s1 s2 key.2⟩
  · rw [asm, List.pairwise_map]
    have nd : (RelOk.borders r Rs.length).Nodup := List.nodup_range.filter _
    refine List.Pairwise.imp_of_mem ?_ nd
    intro p p' hp hp' hne
    obtain ⟨p1, p2⟩ := RelOk.mem_borders.1 hp
    obtain ⟨p1', p2'⟩ := RelOk.mem_borders.1 hp'
    obtain ⟨s1, s2⟩ := edges p p1
    obtain ⟨t1, t2⟩ := edges p' p1'
    exact ⟨apart_same s1 s2 t1 t2 (I.fam_apart hF P p1 p2 p1' p2' hne),
      apart_same t1 t2 s1 s2 (I.fam_apart hF P p1' p2' p1 p2 (Ne.symm hne))⟩

end TraceInv

end Selected

/-- The polygons of the result are valid if the recorded events below tell parities. -/
theorem eventsToPolygons_valid {h : Heap ShapedData} {events : List Ev} (S : Selected h (events.filter (fromResult h)))
    (B : Selected.BelowOk h (events.filter (fromResult h))) (P : Selected.Parity h (events.filter (fromResult h))) :
    ∃ ps, eventsToPolygons h events = .ok ps ∧ S.Outline ps ∧ ValidPolygons ps := by
  obtain ⟨r, contours, processed, m, Rs, F, ptr, h1, h2, h3⟩ := S.tracing B
  refine ⟨assemblePolygons r contours, ?_, h2.outline h3, h2.valid h3 P⟩
  unfold eventsToPolygons
  dsimp only
  rw [h1]

end Clipping

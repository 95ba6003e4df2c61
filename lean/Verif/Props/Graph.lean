import Verif.Lemmas.BuiltChain
import Verif.Props.DataMap

/-!
# C63: neighbour pairs and the adjacency matrix
-/

set_option autoImplicit false
set_option linter.unusedSectionVars false

namespace Lattpy

open Structure World

variable {d : ℕ}

/-- The pairs of one site. -/
def sitePairs {K : Type*} (D : LatticeData d K) (i : ℕ) : List ((ℕ × ℕ) × ℕ) :=
  ((D.entries.getD i []).filter fun e => decide (e.level < D.invalidDistidx)).map fun e =>
    ((i, e.nbr), e.level)

theorem neighborPairs_eq {K : Type*} {L : Lattice d K} {D : LatticeData d K} (hD : L.data = some D)
    {width : ℕ} (hR : D.Rect width) (hV : D.Valid) :
    L.neighborPairs false = .ok ((List.range D.numSites).flatMap (sitePairs D)) ∧
    L.neighborPairs true = .ok (((List.range D.numSites).flatMap (sitePairs D)).filter
      fun p => decide (p.1.1 < p.1.2)) := by
  have hvalid : (D.pairTable.filter fun p => decide (p.2 ≠ D.invalidDistidx)) =
      (List.range D.numSites).flatMap (sitePairs D) := by
    rw [pairTable_eq hR, List.filter_flatMap]
    apply List.flatMap_congr
    intro i hi
    have hm := getD_mem_entries hR (by simpa using hi : i < D.numSites)
    rw [List.filter_map]
    unfold sitePairs
    congr 1
    apply List.filter_congr
    intro e he
    simp only [Function.comp_apply]
    rw [decide_eq_decide]
    rcases hV.entry _ hm e he with h1 | h1 <;> omega
  unfold Lattice.neighborPairs
  rw [hD]
  dsimp only
  rw [hvalid]
  exact ⟨rfl, rfl⟩

theorem flatMap_filter_site {K : Type*} (D : LatticeData d K) {i : ℕ} (hi : i < D.numSites)
    (p : (ℕ × ℕ) × ℕ → Bool) :
    (((List.range D.numSites).flatMap (sitePairs D)).filter fun q => decide (q.1.1 = i) && p q) =
      (sitePairs D i).filter p := by
  rw [List.filter_flatMap]
  have h1 : ∀ k, (sitePairs D k).filter (fun q => decide (q.1.1 = i) && p q) =
      if k = i then (sitePairs D i).filter p else [] := by
    intro k
    by_cases hk : k = i
    · subst hk
      rw [if_pos rfl]
      apply List.filter_congr
      intro q hq
      obtain ⟨e, -, rfl⟩ := List.mem_map.1 hq
      simp
    · rw [if_neg hk, List.filter_eq_nil_iff]
      intro q hq
      obtain ⟨e, -, rfl⟩ := List.mem_map.1 hq
      simp [hk]
  rw [List.flatMap_congr fun k _ => h1 k]
  have h2 : List.range D.numSites = List.range i ++ (i :: List.range' (i + 1) (D.numSites - i - 1)) := by
    rw [List.range_eq_range', List.range_eq_range', ← List.range'_succ]
    have := List.range'_append (s := 0) (m := i) (n := D.numSites - i - 1 + 1) (step := 1)
    rw [Nat.zero_add, Nat.one_mul] at this
    rw [this]
    congr 1
    omega
  rw [h2, List.flatMap_append, List.flatMap_cons, if_pos rfl]
  have h3 : (List.range i).flatMap (fun k => if k = i then (sitePairs D i).filter p else []) = [] := by
    rw [List.flatMap_eq_nil_iff]
    intro k hk
    rw [List.mem_range] at hk
    rw [if_neg (by omega)]
  have h4 : (List.range' (i + 1) (D.numSites - i - 1)).flatMap
      (fun k => if k = i then (sitePairs D i).filter p else []) = [] := by
    rw [List.flatMap_eq_nil_iff]
    intro k hk
    rw [List.mem_range'_1] at hk
    rw [if_neg (by omega)]
  rw [h3, h4, List.nil_append, List.append_nil]

theorem sitePairs_nbrs {K : Type*} {L : Lattice d K} {D : LatticeData d K} (hD : L.data = some D)
    {width : ℕ} (hR : D.Rect width) {i : ℕ} (hi : i < D.numSites) (unique : Bool) :
    L.neighbors i none unique = .ok (((sitePairs D i).filter fun q =>
      !unique || decide (i < q.1.2)).map fun q => q.1.2) ∧
    ∀ x < D.invalidDistidx, L.neighbors i (some x) unique = .ok (((sitePairs D i).filter fun q =>
      decide (q.2 = x) && (!unique || decide (i < q.1.2))).map fun q => q.1.2) := by
  obtain ⟨row, hrow, -, hget⟩ := hR.getNeighbors hi
  have hnb : ∀ dist, L.neighbors i dist unique =
      .ok ((row.filter (D.sel i dist none unique)).map Entry.nbr) := by
    intro dist
    unfold Lattice.neighbors
    rw [hD]
    exact hget dist none unique
  have hg : D.entries.getD i [] = row := by rw [List.getD_eq_getElem?_getD, hrow]; rfl
  unfold sitePairs
  rw [hg]
  refine ⟨?_, fun x hx => ?_⟩
  · rw [hnb, List.filter_map, List.map_map, List.filter_filter]
    congr 2
    apply List.filter_congr
    intro e _
    simp [LatticeData.sel, Bool.and_comm]
  · rw [hnb, List.filter_map, List.map_map, List.filter_filter]
    congr 2
    apply List.filter_congr
    intro e _
    simp only [LatticeData.sel, LatticeData.levelSel_some, Function.comp_apply, Bool.and_true]
    by_cases he : e.level = x
    · simp [he, hx]
    · simp [he]

/-- `neighbor_pairs` for consistent tables: per site, and per site and level, the pairs are exactly
the entries of the neighbour lists, each as often as in the list; all sites and levels exist; the
unique pairs are those with `i < j`, and agree with the unique neighbour lists. -/
theorem C63_pairs {L : Lattice d ℝ} {D : LatticeData d ℝ} (hD : L.data = some D) {width : ℕ}
    (hR : D.Rect width) (hV : D.Valid) :
    ∃ ps us, L.neighborPairs false = .ok ps ∧ L.neighborPairs true = .ok us ∧
      us = ps.filter (fun p => decide (p.1.1 < p.1.2)) ∧
      (∀ p ∈ ps, p.1.1 < D.numSites ∧ p.1.2 < D.numSites ∧ p.2 < D.invalidDistidx) ∧
      ∀ i < D.numSites,
        L.neighbors i none false = .ok ((ps.filter fun p => decide (p.1.1 = i)).map fun p => p.1.2) ∧
        L.neighbors i none true = .ok ((us.filter fun p => decide (p.1.1 = i)).map fun p => p.1.2) ∧
        ∀ x < D.invalidDistidx, L.neighbors i (some x) false =
          .ok ((ps.filter fun p => decide (p.1.1 = i ∧ p.2 = x)).map fun p => p.1.2) := by
  obtain ⟨h1, h2⟩ := neighborPairs_eq hD hR hV
  refine ⟨_, _, h1, h2, rfl, ?_, ?_⟩
  · intro p hp
    obtain ⟨i, hi, hp⟩ := List.mem_flatMap.1 hp
    rw [List.mem_range] at hi
    obtain ⟨e, he, rfl⟩ := List.mem_map.1 hp
    obtain ⟨he1, he2⟩ := List.mem_filter.1 he
    rw [decide_eq_true_eq] at he2
    rcases hV.entry _ (getD_mem_entries hR hi) e he1 with h | h
    · exact ⟨hi, h.2, h.1⟩
    · omega
  · intro i hi
    obtain ⟨g1, g2⟩ := sitePairs_nbrs hD hR hi false
    obtain ⟨g3, -⟩ := sitePairs_nbrs hD hR hi true
    refine ⟨?_, ?_, fun x hx => ?_⟩
    · rw [g1, ← flatMap_filter_site D hi]
      simp
    · rw [g3, ← flatMap_filter_site D hi, List.filter_filter]
      congr 2
      apply List.filter_congr
      intro q _
      by_cases hq : q.1.1 = i
      · simp [hq]
      · simp [hq]
    · rw [g2 x hx, ← flatMap_filter_site D hi]
      simp

theorem exists_unique_of_nodup {α : Type*} {l : List α} {f : α → ℕ} (h : (l.map f).Nodup) (j : ℕ) :
    (l.filter fun a => decide (f a = j)) = [] ∨ ∃ a ∈ l, f a = j ∧
      (l.filter fun a => decide (f a = j)) = [a] := by
  induction l with
  | nil => left; rfl
  | cons a l ih =>
    rw [List.map_cons, List.nodup_cons] at h
    by_cases ha : f a = j
    · right
      refine ⟨a, by simp, ha, ?_⟩
      rw [List.filter_cons_of_pos (by simpa using ha), List.filter_eq_nil_iff.2]
      intro b hb hbj
      rw [decide_eq_true_eq] at hbj
      exact h.1 (List.mem_map.2 ⟨b, hb, by rw [hbj, ha]⟩)
    · rw [List.filter_cons_of_neg (by simpa using ha)]
      rcases ih h.2 with h1 | ⟨b, hb, h1, h2⟩
      · exact Or.inl h1
      · exact Or.inr ⟨b, by simp [hb], h1, h2⟩

theorem foldl_max_spec (l : List ℕ) (a : ℕ) :
    (l.foldl max a = a ∨ l.foldl max a ∈ l) ∧ a ≤ l.foldl max a ∧ ∀ x ∈ l, x ≤ l.foldl max a := by
  obtain ⟨h1, h2⟩ := foldl_max_isGreatest l a
  exact ⟨h1, h2 (Or.inl rfl), fun x hx => h2 (Or.inr hx)⟩

theorem filterMap_if {α β : Type*} (p : α → Prop) [DecidablePred p] (f : α → β) (l : List α) :
    (l.filterMap fun a => if p a then some (f a) else none) =
      (l.filter fun a => decide (p a)).map f := by
  induction l with
  | nil => rfl
  | cons a l ih =>
    by_cases ha : p a
    · rw [List.filterMap_cons_some (by rw [if_pos ha]), List.filter_cons_of_pos (by simpa using ha),
        List.map_cons, ih]
    · rw [List.filterMap_cons_none (by rw [if_neg ha]), List.filter_cons_of_neg (by simpa using ha),
        ih]

/-- The adjacency matrix in terms of the pairs. -/
theorem adjacencyMatrix_cases {K : Type*} {L : Lattice d K} {ps : List ((ℕ × ℕ) × ℕ)}
    (h : L.neighborPairs false = .ok ps) :
    (ps = [] ∧ L.adjacencyMatrix = .error .value) ∨
    ∃ M, L.adjacencyMatrix = .ok M ∧ ps ≠ [] ∧
      (∃ p ∈ ps, M.rows = p.1.1 + 1) ∧ (∀ p ∈ ps, p.1.1 < M.rows) ∧
      (∃ p ∈ ps, M.cols = p.1.2 + 1) ∧ (∀ p ∈ ps, p.1.2 < M.cols) ∧
      ∀ i j, M.entry i j = wrapSigned 8 ((ps.filter fun q => decide (q.1 = (i, j))).map
        fun q => (q.2 : ℤ) + 1).sum := by
  cases ps with
  | nil =>
    left
    refine ⟨rfl, ?_⟩
    unfold Lattice.adjacencyMatrix
    rw [h]
  | cons p ps =>
    right
    obtain ⟨a1, a2, a3⟩ := foldl_max_spec (ps.map fun q => q.1.1) p.1.1
    obtain ⟨b1, b2, b3⟩ := foldl_max_spec (ps.map fun q => q.1.2) p.1.2
    refine ⟨_, by unfold Lattice.adjacencyMatrix; rw [h], by simp, ?_, ?_, ?_, ?_, ?_⟩
    · rcases a1 with h | h
      · exact ⟨p, by simp, by dsimp only; rw [h]⟩
      · obtain ⟨q, hq, hq'⟩ := List.mem_map.1 h
        exact ⟨q, by simp [hq], by dsimp only; rw [← hq']⟩
    · intro q hq
      rcases List.mem_cons.1 hq with rfl | hq
      · dsimp only; omega
      · have := a3 _ (List.mem_map.2 ⟨q, hq, rfl⟩)
        dsimp only at this ⊢
        omega
    · rcases b1 with h | h
      · exact ⟨p, by simp, by dsimp only; rw [h]⟩
      · obtain ⟨q, hq, hq'⟩ := List.mem_map.1 h
        exact ⟨q, by simp [hq], by dsimp only; rw [← hq']⟩
    · intro q hq
      rcases List.mem_cons.1 hq with rfl | hq
      · dsimp only; omega
      · have := b3 _ (List.mem_map.2 ⟨q, hq, rfl⟩)
        dsimp only at this ⊢
        omega
    · intro i j
      dsimp only
      congr 2
      exact filterMap_if _ _ _

theorem filter_pair (ps : List ((ℕ × ℕ) × ℕ)) (i j : ℕ) :
    (ps.filter fun q => decide (q.1 = (i, j))) =
      (ps.filter fun q => decide (q.1.1 = i)).filter fun q => decide (q.1.2 = j) := by
  rw [List.filter_filter]
  apply List.filter_congr
  intro q _
  rw [← Bool.decide_and, decide_eq_decide, Prod.ext_iff]
  tauto

/-- `adjacency_matrix` for consistent tables: it raises `ValueError` exactly if no site has a
neighbour.  Otherwise the matrix is at most `N × N`, and has `N` rows (columns) if the last site has
(is) a neighbour.  If no site is listed twice and there are at most 127 levels: the entry at
`(i, j)` is `x + 1` exactly if `j` is a neighbour of `i` at level `x`, and 0 exactly if `j` is not a
neighbour of `i`; if moreover the neighbour lists are symmetric, so is the matrix. -/
theorem C63_adjacency_partial {L : Lattice d ℝ} {D : LatticeData d ℝ} (hD : L.data = some D)
    {width : ℕ} (hR : D.Rect width) (hV : D.Valid) :
    (L.adjacencyMatrix = .error .value ↔ ∀ i < D.numSites, L.neighbors i none false = .ok []) ∧
    ((∃ i < D.numSites, L.neighbors i none false ≠ .ok []) → ∃ M, L.adjacencyMatrix = .ok M ∧
      M.rows ≤ D.numSites ∧ M.cols ≤ D.numSites ∧
      (L.neighbors (D.numSites - 1) none false ≠ .ok [] → M.rows = D.numSites) ∧
      ((∃ i < D.numSites, ∃ l, L.neighbors i none false = .ok l ∧ D.numSites - 1 ∈ l) →
        M.cols = D.numSites) ∧
      ((∀ i < D.numSites, ∀ l, L.neighbors i none false = .ok l → l.Nodup) →
        D.invalidDistidx ≤ 127 →
        (∀ i < D.numSites, ∀ j,
          (M.entry i j = 0 ↔ ∃ l, L.neighbors i none false = .ok l ∧ j ∉ l) ∧
          ∀ x < D.invalidDistidx, M.entry i j = (x : ℤ) + 1 ↔
            ∃ l, L.neighbors i (some x) false = .ok l ∧ j ∈ l) ∧
        ((∀ i < D.numSites, ∀ j < D.numSites, ∀ x < D.invalidDistidx, ∀ l l',
            L.neighbors i (some x) false = .ok l → L.neighbors j (some x) false = .ok l' →
            j ∈ l → i ∈ l') →
          M.rows = M.cols ∧ ∀ i j, M.entry i j = M.entry j i))) := by
  obtain ⟨ps, us, h1, -, -, hlt, hnb⟩ := C63_pairs hD hR hV
  have hnil : ps = [] ↔ ∀ i < D.numSites, L.neighbors i none false = .ok [] := by
    constructor
    · rintro rfl i hi
      rw [(hnb i hi).1]
      rfl
    · intro h
      rw [List.eq_nil_iff_forall_not_mem]
      intro p hp
      have hi := (hlt p hp).1
      have := h _ hi
      rw [(hnb _ hi).1, Except.ok.injEq, List.map_eq_nil_iff, List.filter_eq_nil_iff] at this
      exact this p hp (by simp)
  have hne : ∀ i < D.numSites, L.neighbors i none false ≠ .ok [] → ∃ p ∈ ps, p.1.1 = i := by
    intro i hi h
    by_contra hno
    push Not at hno
    apply h
    rw [(hnb i hi).1, List.filter_eq_nil_iff.2]
    · rfl
    · intro p hp
      simpa using hno p hp
  rcases adjacencyMatrix_cases h1 with ⟨h2, h3⟩ | ⟨M, h2, h3, ⟨pr, hpr, hr⟩, hrows, ⟨pc, hpc, hc⟩, hcols, hent⟩
  · refine ⟨⟨fun _ => hnil.1 h2, fun _ => h3⟩, ?_⟩
    rintro ⟨i, hi, h⟩
    exact absurd (hnil.1 h2 i hi) h
  · refine ⟨⟨fun h => (by rw [h2] at h; cases h), fun h => absurd (hnil.2 h) h3⟩, fun _ => ?_⟩
    have hrow' := (hlt pr hpr).1
    have hcol' := (hlt pc hpc).2.1
    refine ⟨M, h2, by omega, by omega, ?_, ?_, ?_⟩
    · intro h
      obtain ⟨p, hp, hp1⟩ := hne _ (by omega) h
      have := hrows p hp
      omega
    · rintro ⟨i, hi, l, hl, hm⟩
      rw [(hnb i hi).1] at hl
      cases hl
      obtain ⟨p, hp, hp1⟩ := List.mem_map.1 hm
      have := hcols p (List.mem_filter.1 hp).1
      omega
    · intro hnd h127
      have hsplit : ∀ i j, (ps.filter fun q => decide (q.1 = (i, j))) =
          (ps.filter fun q => decide (q.1.1 = i)).filter fun q => decide (q.1.2 = j) := by
        exact filter_pair ps
      have hone : ∀ i < D.numSites, ∀ j, (M.entry i j = 0 ∧ ∀ q ∈ ps, q.1 ≠ (i, j)) ∨
          ∃ q ∈ ps, q.1 = (i, j) ∧ M.entry i j = (q.2 : ℤ) + 1 ∧
            ∀ q' ∈ ps, q'.1 = (i, j) → q' = q := by
        intro i hi j
        have h4 := hnd i hi _ (hnb i hi).1
        rcases exists_unique_of_nodup h4 j with h5 | ⟨q, hq, hqj, h5⟩
        · left
          rw [← hsplit] at h5
          refine ⟨?_, ?_⟩
          · rw [hent, h5]
            rfl
          · intro q hq hqe
            exact List.filter_eq_nil_iff.1 h5 q hq (by simpa using hqe)
        · right
          rw [← hsplit] at h5
          have hq1 : q ∈ ps.filter fun q => decide (q.1 = (i, j)) := by rw [h5]; simp
          obtain ⟨hq2, hq3⟩ := List.mem_filter.1 hq1
          rw [decide_eq_true_eq] at hq3
          refine ⟨q, hq2, hq3, ?_, ?_⟩
          · rw [hent, h5]
            simp only [List.map_cons, List.map_nil, List.sum_cons, List.sum_nil, add_zero]
            have := (hlt q hq2).2.2
            exact wrapSigned_of_lt (by norm_num) (by positivity) (by norm_num; omega)
          · intro q' hq' hqe
            have : q' ∈ ps.filter fun q => decide (q.1 = (i, j)) :=
              List.mem_filter.2 ⟨hq', by simpa using hqe⟩
            rw [h5] at this
            simpa using this
      have hlev : ∀ i < D.numSites, ∀ j, ∀ x < D.invalidDistidx, M.entry i j = (x : ℤ) + 1 ↔
            ∃ l, L.neighbors i (some x) false = .ok l ∧ j ∈ l := by
        intro i hi j x hx
        have hex : (∃ l, L.neighbors i (some x) false = .ok l ∧ j ∈ l) ↔
            ∃ q ∈ ps, q.1 = (i, j) ∧ q.2 = x := by
          rw [(hnb i hi).2.2 x hx]
          constructor
          · rintro ⟨l, hl, hj⟩
            cases hl
            obtain ⟨q, hq, hqj⟩ := List.mem_map.1 hj
            obtain ⟨hq1, hq2⟩ := List.mem_filter.1 hq
            rw [decide_eq_true_eq] at hq2
            exact ⟨q, hq1, Prod.ext hq2.1 hqj, hq2.2⟩
          · rintro ⟨q, hq, hqe, hqx⟩
            refine ⟨_, rfl, List.mem_map.2 ⟨q, List.mem_filter.2 ⟨hq, ?_⟩, by rw [hqe]⟩⟩
            simp [hqe, hqx]
        rw [hex]
        rcases hone i hi j with ⟨h4, h5⟩ | ⟨q, hq, hqe, h4, h5⟩
        · constructor
          · intro h; omega
          · rintro ⟨q, hq, hqe, -⟩
            exact absurd hqe (h5 q hq)
        · constructor
          · intro h
            exact ⟨q, hq, hqe, by omega⟩
          · rintro ⟨q', hq', hqe', hx'⟩
            rw [h5 q' hq' hqe'] at hx'
            omega
      refine ⟨fun i hi j => ⟨?_, hlev i hi j⟩, ?_⟩
      · rw [(hnb i hi).1]
        rcases hone i hi j with ⟨h4, h5⟩ | ⟨q, hq, hqe, h4, h5⟩
        · refine ⟨fun _ => ⟨_, rfl, ?_⟩, fun _ => h4⟩
          intro hj
          obtain ⟨q, hq, hqj⟩ := List.mem_map.1 hj
          obtain ⟨hq1, hq2⟩ := List.mem_filter.1 hq
          rw [decide_eq_true_eq] at hq2
          exact h5 q hq1 (Prod.ext hq2 hqj)
        · constructor
          · intro h; omega
          · rintro ⟨l, hl, hj⟩
            cases hl
            exact absurd (List.mem_map.2 ⟨q, List.mem_filter.2 ⟨hq, by simp [hqe]⟩, by rw [hqe]⟩) hj
      · intro hsym
        have hmir : ∀ p ∈ ps, ∃ q ∈ ps, q.1 = (p.1.2, p.1.1) ∧ q.2 = p.2 := by
          intro p hp
          obtain ⟨p1, p2, p3⟩ := hlt p hp
          have := hsym p.1.1 p1 p.1.2 p2 p.2 p3 _ _ ((hnb _ p1).2.2 _ p3) ((hnb _ p2).2.2 _ p3)
            (List.mem_map.2 ⟨p, List.mem_filter.2 ⟨hp, by simp⟩, rfl⟩)
          obtain ⟨q, hq, hqj⟩ := List.mem_map.1 this
          obtain ⟨hq1, hq2⟩ := List.mem_filter.1 hq
          rw [decide_eq_true_eq] at hq2
          exact ⟨q, hq1, Prod.ext hq2.1 hqj, hq2.2⟩
        constructor
        · obtain ⟨q, hq, hqe, -⟩ := hmir pr hpr
          obtain ⟨q', hq', hqe', -⟩ := hmir pc hpc
          have a1 := hcols q hq
          have a2 := hrows q' hq'
          rw [hqe] at a1
          rw [hqe'] at a2
          dsimp only at a1 a2
          omega
        · intro i j
          have hzero : ∀ i j, D.numSites ≤ i ∨ D.numSites ≤ j → M.entry i j = 0 := by
            intro i j hij
            rw [hent, List.filter_eq_nil_iff.2]
            · rfl
            · intro q hq hqe
              rw [decide_eq_true_eq] at hqe
              obtain ⟨q1, q2, -⟩ := hlt q hq
              rw [hqe] at q1 q2
              dsimp only at q1 q2
              omega
          by_cases hi : i < D.numSites
          · by_cases hj : j < D.numSites
            · rcases hone i hi j with ⟨h4, h5⟩ | ⟨q, hq, hqe, h4, h5⟩
              · rcases hone j hj i with ⟨h6, h7⟩ | ⟨q, hq, hqe, h6, h7⟩
                · rw [h4, h6]
                · obtain ⟨q', hq', hqe', -⟩ := hmir q hq
                  rw [hqe] at hqe'
                  exact absurd hqe' (h5 q' hq')
              · obtain ⟨q', hq', hqe', hqx⟩ := hmir q hq
                rw [hqe] at hqe'
                rcases hone j hj i with ⟨h6, h7⟩ | ⟨q2, hq2, hqe2, h6, h7⟩
                · exact absurd hqe' (h7 q' hq')
                · rw [h4, h6, ← h7 q' hq' hqe', hqx]
            · rw [hzero i j (by omega), hzero j i (by omega)]
          · rw [hzero i j (by omega), hzero j i (by omega)]

/-- The levels of the complete chain `0 … N` with at least `nb + 1` sites. -/
theorem full_chain_levels {env : Env ℝ} {nb N : ℕ} (hN : nb ≤ N) {w : World 1 ℝ} {A : Analysis 1 ℝ}
    {L : Lattice 1 ℝ} {D : LatticeData 1 ℝ} {table : List (List (ℕ × WithTop ℝ))}
    (h : IsBuiltChain env nb N (fun _ => true) w A L D table) :
    D.distvals = (List.range nb).map (fun m : ℕ => ((((m + 1 : ℕ) : ℝ)) : WithTop ℝ)) ++ [⊤] := by
  have hcells : chainCells N (fun _ => true) = List.range (N + 1) := by simp [chainCells]
  refine eq_of_sorted h.sorted ?_ fun x => ?_
  · rw [List.pairwise_append]
    refine ⟨?_, by simp, ?_⟩
    · rw [List.pairwise_map]
      refine List.pairwise_lt_range.imp ?_
      intro a b hab
      exact_mod_cast Nat.succ_lt_succ hab
    · intro a ha b hb
      obtain ⟨m, -, rfl⟩ := List.mem_map.1 ha
      rw [List.mem_singleton] at hb
      rw [hb]
      exact WithTop.coe_lt_top _
  · rw [List.mem_append, List.mem_singleton, List.mem_map]
    cases x using WithTop.recTopCoe with
    | top => simp [h.top]
    | coe x =>
      rw [h.mem_distvals, hcells]
      constructor
      · rintro ⟨a, ha, b, hb, hab, hle, rfl⟩
        left
        refine ⟨b - a - 1, List.mem_range.2 (by omega), ?_⟩
        rw [WithTop.coe_inj, show b - a - 1 + 1 = b - a by omega, Nat.cast_sub hab.le]
      · rintro (⟨m, hm, hx⟩ | hx)
        · rw [List.mem_range] at hm
          rw [WithTop.coe_inj] at hx
          refine ⟨0, by simp, m + 1, List.mem_range.2 (by omega), by omega, by omega, ?_⟩
          rw [← hx]
          simp
        · exact absurd hx (WithTop.coe_ne_top)

/-- The chain of 4 sites with two neighbour shells meets all hypotheses of `C63_pairs` and
`C63_adjacency_partial`; its adjacency matrix is `4 × 4` with entries 1 next to the diagonal and 2
next to those. -/
example (env : Env ℝ) : ∃ (L : Lattice 1 ℝ) (D : LatticeData 1 ℝ) (width : ℕ) (M : Lattice.Sparse),
    L.data = some D ∧ D.Rect width ∧ D.Valid ∧ D.numSites = 4 ∧
    (∀ i < D.numSites, ∀ l, L.neighbors i none false = .ok l → l.Nodup) ∧
    (∀ i < D.numSites, ∀ j < D.numSites, ∀ x < D.invalidDistidx, ∀ l l',
      L.neighbors i (some x) false = .ok l → L.neighbors j (some x) false = .ok l' →
      j ∈ l → i ∈ l') ∧ D.invalidDistidx ≤ 127 ∧
    L.neighbors (D.numSites - 1) none false ≠ .ok [] ∧
    L.adjacencyMatrix = .ok M ∧ M.rows = 4 ∧ M.cols = 4 ∧ M.entry 0 1 = 1 ∧ M.entry 2 0 = 2 ∧
    M.entry 0 3 = 0 := by
  obtain ⟨w, A, L, D, table, h⟩ := exists_isBuiltChain env (nb := 2) (by norm_num) (by norm_num) 3
    (fun _ => true) (by decide)
  obtain ⟨width, hR, hV⟩ := h.rect
  have hcells : chainCells 3 (fun _ => true) = [0, 1, 2, 3] := by decide
  have hns : D.numSites = 4 := by rw [h.numSites, hcells]; rfl
  have hdv := full_chain_levels (by norm_num) h
  have hlt : D.invalidDistidx = 2 := by
    obtain ⟨-, -, -, h1, -, h2, -⟩ := set_table D.indices D.positions table ⊤
      ((mem_distvals h.set ⊤).1 h.top) (fun _ _ _ _ => le_top) h.set h.levels
    rw [hdv] at h1
    obtain ⟨h3, h4⟩ := List.getElem?_eq_some_iff.1 h1
    simp only [List.length_append, List.length_map, List.length_range, List.length_singleton] at h3
    rcases Nat.lt_or_ge D.invalidDistidx 2 with h5 | h5
    · rw [List.getElem_append_left (by simpa using h5), List.getElem_map] at h4
      exact absurd h4 WithTop.coe_ne_top
    · omega
  have hnb : ∀ i < 4, ∃ l, L.neighbors i none false = .ok l ∧ l.Perm (chainNbrs [0, 1, 2, 3] 2 i) ∧
      ∀ x < 2, ∃ ln, L.neighbors i (some x) false = .ok ln ∧
        ln.Perm (chainAt [0, 1, 2, 3] (x + 1) i) := by
    intro i hi
    obtain ⟨l, h1, h2, h3⟩ := h.neighbors (i := i) (by rw [hcells]; simpa using hi)
    rw [hcells] at h2 h3
    refine ⟨l, h1, h2, fun x hx => h3 x (x + 1) (by omega) (by omega) ?_⟩
    rw [hdv, List.getElem?_append_left (by simpa using hx), List.getElem?_map,
      List.getElem?_range hx]
    rfl
  have hnd : ∀ i < D.numSites, ∀ l, L.neighbors i none false = .ok l → l.Nodup := by
    intro i hi l hl
    obtain ⟨l', h1, h2, -⟩ := hnb i (by omega)
    rw [h1] at hl
    cases hl
    exact h2.nodup_iff.2 (List.nodup_range.filter _)
  have hsym : ∀ i < D.numSites, ∀ j < D.numSites, ∀ x < D.invalidDistidx, ∀ l l',
      L.neighbors i (some x) false = .ok l → L.neighbors j (some x) false = .ok l' →
      j ∈ l → i ∈ l' := by
    rw [hns, hlt]
    intro i hi j hj x hx l l' hl hl' hm
    obtain ⟨-, -, -, h3⟩ := hnb i hi
    obtain ⟨-, -, -, h3'⟩ := hnb j hj
    obtain ⟨ln, h4, h5⟩ := h3 x hx
    obtain ⟨ln', h4', h5'⟩ := h3' x hx
    rw [hl] at h4
    rw [hl'] at h4'
    cases h4
    cases h4'
    rw [h5.mem_iff] at hm
    rw [h5'.mem_iff]
    unfold chainAt at hm ⊢
    rw [List.mem_filter, decide_eq_true_eq] at hm ⊢
    exact ⟨by simpa using hi, hm.2.symm⟩
  have hlast : L.neighbors (D.numSites - 1) none false ≠ .ok [] := by
    obtain ⟨l, h1, h2, -⟩ := hnb 3 (by norm_num)
    rw [hns, h1]
    intro h
    cases h
    have := h2.length_eq
    revert this
    decide
  have h1le : D.invalidDistidx ≤ 127 := by omega
  obtain ⟨-, hadj⟩ := C63_adjacency_partial h.data hR hV
  obtain ⟨M, hM, -, -, hrows, hcols, hent⟩ := hadj ⟨_, by omega, hlast⟩
  obtain ⟨hent, hs⟩ := hent hnd h1le
  obtain ⟨hrc, -⟩ := hs hsym
  have hr := hrows hlast
  refine ⟨L, D, width, M, h.data, hR, hV, hns, hnd, hsym, h1le, hlast, hM, by omega, by omega, ?_, ?_, ?_⟩
  · obtain ⟨-, -, -, h3⟩ := hnb 0 (by norm_num)
    obtain ⟨ln, h4, h5⟩ := h3 0 (by norm_num)
    refine ((hent 0 (by omega) 1).2 0 (by omega)).2 ⟨ln, h4, ?_⟩
    rw [h5.mem_iff]
    decide
  · obtain ⟨-, -, -, h3⟩ := hnb 2 (by norm_num)
    obtain ⟨ln, h4, h5⟩ := h3 1 (by norm_num)
    refine ((hent 2 (by omega) 0).2 1 (by omega)).2 ⟨ln, h4, ?_⟩
    rw [h5.mem_iff]
    decide
  · obtain ⟨l, h1, h2, -⟩ := hnb 0 (by norm_num)
    refine (hent 0 (by omega) 3).1.2 ⟨l, h1, ?_⟩
    rw [h2.mem_iff]
    decide

/-- C63 fails: the adjacency matrix of the chain with sites at 0, 1 and 3 (nearest neighbours) is
`2 × 2` although the lattice has 3 sites: SciPy takes the size from the largest index, and the last
site has no neighbour. -/
theorem C63_shape_fails (env : Env ℝ) : ∃ (w : World 1 ℝ) (L : Lattice 1 ℝ) (D : LatticeData 1 ℝ)
    (M : Lattice.Sparse), Reachable env w ∧
    (Lattice.ofWorld w).build env (chainArgs 3 fun i => decide (i ≠ 2)) = (L, .ok ()) ∧
    L.data = some D ∧ D.positions = [fun _ => 0, fun _ => 1, fun _ => 3] ∧
    L.adjacencyMatrix = .ok M ∧ M.rows = 2 ∧ M.cols = 2 := by
  obtain ⟨w, A, L, D, table, h⟩ := exists_isBuiltChain env (nb := 1) (by norm_num) (by norm_num) 3
    (fun i => decide (i ≠ 2)) (by decide)
  obtain ⟨width, hR, hV⟩ := h.rect
  have hcells : chainCells 3 (fun i => decide (i ≠ 2)) = [0, 1, 3] := by decide
  have hns : D.numSites = 3 := by rw [h.numSites, hcells]; rfl
  obtain ⟨ps, us, h1, -, -, hlt, hnb⟩ := C63_pairs h.data hR hV
  have hps : ∀ i < 3, ∀ j, (∃ p ∈ ps, p.1 = (i, j)) ↔ j ∈ chainNbrs [0, 1, 3] 1 i := by
    intro i hi j
    obtain ⟨l, h2, h3, -⟩ := h.neighbors (i := i) (by rw [hcells]; exact hi)
    rw [hcells] at h3
    rw [(hnb i (by omega)).1] at h2
    cases h2
    rw [← h3.mem_iff, List.mem_map]
    constructor
    · rintro ⟨p, hp, hpe⟩
      exact ⟨p, List.mem_filter.2 ⟨hp, by simp [hpe]⟩, by rw [hpe]⟩
    · rintro ⟨p, hp, hpj⟩
      obtain ⟨hp1, hp2⟩ := List.mem_filter.1 hp
      exact ⟨p, hp1, Prod.ext (by simpa using hp2) hpj⟩
  have hbound : ∀ p ∈ ps, p.1.1 < 2 ∧ p.1.2 < 2 := by
    intro p hp
    obtain ⟨h2, h3, -⟩ := hlt p hp
    rw [hns] at h2 h3
    have := (hps p.1.1 h2 p.1.2).1 ⟨p, hp, rfl⟩
    generalize p.1.1 = i at *
    generalize p.1.2 = j at *
    revert this
    interval_cases i <;> interval_cases j <;> decide
  obtain ⟨p01, hp01, he01⟩ := (hps 0 (by norm_num) 1).2 (by decide)
  obtain ⟨p10, hp10, he10⟩ := (hps 1 (by norm_num) 0).2 (by decide)
  rcases adjacencyMatrix_cases h1 with ⟨h2, -⟩ | ⟨M, h2, -, ⟨pr, hpr, hr⟩, hrows, ⟨pc, hpc, hc⟩, hcols, -⟩
  · rw [h2] at hp01; cases hp01
  · refine ⟨w, L, D, M, h.reach, h.build, h.data, ?_, h2, ?_, ?_⟩
    · rw [h.sites, hcells]
      simp
    · have a1 := hrows p10 hp10
      have a2 := (hbound pr hpr).1
      rw [he10] at a1
      dsimp only at a1
      omega
    · have a1 := hcols p01 hp01
      have a2 := (hbound pc hpc).2
      rw [he01] at a1
      dsimp only at a1
      omega

/-- C63 fails: for the chain with sites at 0 and 2 (nearest neighbours) `adjacency_matrix` raises
`ValueError`, since no site has a neighbour. -/
theorem C63_no_neighbors_fails (env : Env ℝ) : ∃ (w : World 1 ℝ) (L : Lattice 1 ℝ)
    (D : LatticeData 1 ℝ), Reachable env w ∧
    (Lattice.ofWorld w).build env (chainArgs 2 fun i => decide (i ≠ 1)) = (L, .ok ()) ∧
    L.data = some D ∧ D.positions = [fun _ => 0, fun _ => 2] ∧
    L.adjacencyMatrix = .error .value := by
  obtain ⟨w, A, L, D, table, h⟩ := exists_isBuiltChain env (nb := 1) (by norm_num) (by norm_num) 2
    (fun i => decide (i ≠ 1)) (by decide)
  obtain ⟨width, hR, hV⟩ := h.rect
  have hcells : chainCells 2 (fun i => decide (i ≠ 1)) = [0, 2] := by decide
  have hns : D.numSites = 2 := by rw [h.numSites, hcells]; rfl
  refine ⟨w, L, D, h.reach, h.build, h.data, ?_, (C63_adjacency_partial h.data hR hV).1.2 ?_⟩
  · rw [h.sites, hcells]
    simp
  · intro i hi
    rw [hns] at hi
    obtain ⟨l, h2, h3, -⟩ := h.neighbors (i := i) (by rw [hcells]; exact hi)
    rw [hcells] at h3
    rw [h2]
    have : chainNbrs [0, 2] 1 i = [] := by interval_cases i <;> decide
    rw [this] at h3
    rw [h3.eq_nil]

/-- C63 fails: the entries are stored as `int8`.  In the chain of 129 sites with 128 neighbour shells
site 128 is a neighbour of site 0 at level 127, but the entry at `(0, 128)` is -128. -/
theorem C63_int8_fails (env : Env ℝ) : ∃ (w : World 1 ℝ) (L : Lattice 1 ℝ) (D : LatticeData 1 ℝ)
    (M : Lattice.Sparse), Reachable env w ∧
    (Lattice.ofWorld w).build env (chainArgs 128 fun _ => true) = (L, .ok ()) ∧
    L.data = some D ∧ D.numSites = 129 ∧
    (∃ l, L.neighbors 0 (some 127) false = .ok l ∧ 128 ∈ l) ∧
    L.adjacencyMatrix = .ok M ∧ M.entry 0 128 = -128 := by
  obtain ⟨w, A, L, D, table, h⟩ := exists_isBuiltChain env (nb := 128) (by norm_num) (by norm_num) 128
    (fun _ => true) (by simp [chainCells])
  obtain ⟨width, hR, hV⟩ := h.rect
  have hcells : chainCells 128 (fun _ => true) = List.range 129 := by simp [chainCells]
  have hns : D.numSites = 129 := by rw [h.numSites, hcells, List.length_range]
  have hdv := full_chain_levels le_rfl h
  obtain ⟨ps, us, h1, -, -, hlt, hnb⟩ := C63_pairs h.data hR hV
  obtain ⟨l, h2, h3, h4⟩ := h.neighbors (i := 0) (by rw [hcells]; simp)
  obtain ⟨ln, h5, h6⟩ := h4 127 128 le_rfl (by norm_num) (by
    rw [hdv, List.getElem?_append_left (by simp), List.getElem?_map, List.getElem?_range (by norm_num)]
    rfl)
  have hm : 128 ∈ ln := by
    rw [h6.mem_iff, hcells]
    unfold chainAt
    rw [List.mem_filter, decide_eq_true_eq]
    refine ⟨by simp, Or.inl ?_⟩
    rw [List.getD_eq_getElem?_getD, List.getD_eq_getElem?_getD, List.getElem?_range (by norm_num),
      List.getElem?_range (by norm_num)]
    rfl
  have hinv : 127 < D.invalidDistidx := by
    obtain ⟨-, -, -, e1, -⟩ := set_table D.indices D.positions table ⊤
      ((mem_distvals h.set ⊤).1 h.top) (fun _ _ _ _ => le_top) h.set h.levels
    rw [hdv] at e1
    by_contra hle
    rw [List.getElem?_append_left (by simp; omega), List.getElem?_map, Option.map_eq_some_iff] at e1
    obtain ⟨m, -, hm⟩ := e1
    exact absurd hm WithTop.coe_ne_top
  rw [(hnb 0 (by omega)).2.2 127 hinv] at h5
  have hln := Except.ok.inj h5
  rw [← hln] at hm
  obtain ⟨q, hq, hqj⟩ := List.mem_map.1 hm
  obtain ⟨hq1, hq2⟩ := List.mem_filter.1 hq
  rw [decide_eq_true_eq] at hq2
  have hqe : q.1 = (0, 128) := Prod.ext hq2.1 hqj
  have hnd : ((ps.filter fun p => decide (p.1.1 = 0)).map fun p => p.1.2).Nodup := by
    rw [(hnb 0 (by omega)).1] at h2
    have := Except.ok.inj h2
    rw [this]
    exact h3.nodup_iff.2 (List.nodup_range.filter _)
  rcases adjacencyMatrix_cases h1 with ⟨h7, -⟩ | ⟨M, h7, -, -, -, -, -, hent⟩
  · rw [h7] at hq1; cases hq1
  · refine ⟨w, L, D, M, h.reach, h.build, h.data, hns, ⟨_, (hnb 0 (by omega)).2.2 127 hinv, ?_⟩,
      h7, ?_⟩
    · exact List.mem_map.2 ⟨q, hq, hqj⟩
    · rw [hent]
      have hf : (ps.filter fun q => decide (q.1 = (0, 128))) = [q] := by
        have hsplit : (ps.filter fun q => decide (q.1 = (0, 128))) =
            (ps.filter fun q => decide (q.1.1 = 0)).filter fun q => decide (q.1.2 = 128) := by
          exact filter_pair ps 0 128
        have hqm : q ∈ ps.filter fun q => decide (q.1 = (0, 128)) :=
          List.mem_filter.2 ⟨hq1, by simpa using hqe⟩
        rcases exists_unique_of_nodup hnd 128 with e | ⟨q', -, -, e⟩
        · rw [hsplit, e] at hqm; cases hqm
        · rw [hsplit, e] at hqm ⊢
          rw [List.mem_singleton] at hqm
          rw [hqm]
      rw [hf, List.map_singleton, List.sum_singleton, hq2.2]
      decide

end Lattpy

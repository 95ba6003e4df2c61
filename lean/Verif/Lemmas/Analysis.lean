import Verif.Lemmas.Stack

/-! Normal form of the result of `LatticeStructure.analyze`. -/

set_option autoImplicit false
set_option linter.unusedSectionVars false

namespace Lattpy
namespace Structure

variable {d : ℕ}

theorem isSel_perm {K : Type*} [LinearOrder K] {n : ℕ} {dist : ℕ → K} {sel : List ℕ}
    (h : IsSel n dist n ⊤ sel) : sel.Perm (List.range n) := by
  refine (List.perm_ext_iff_of_nodup h.nodup List.nodup_range).2 ?_
  intro i
  rw [List.mem_range]
  constructor
  · exact fun hi => (h.range i hi).1
  · intro hi
    by_contra hn
    have h1 := (h.complete i hi (WithTop.coe_lt_top _) hn).1
    have h2 : (i :: sel).Nodup := List.nodup_cons.2 ⟨hn, h.nodup⟩
    have h3 : (i :: sel) ⊆ List.range n := by
      intro j hj
      rw [List.mem_range]
      rcases List.mem_cons.1 hj with rfl | hj
      · exact hi
      · exact (h.range j hj).1
    have h4 := (List.subperm_of_subset h2 h3).length_le
    simp only [List.length_cons, List.length_range] at h4
    omega

/-- The query of a unit-cell atom: all points with their rounded distances, nearest first. -/
theorem queryRow_spec (env : Env ℝ) (indices : List (Idx d)) (points : List (Vec d ℝ))
    (hlen : points.length = indices.length) (h0 : 0 < points.length) (pos : Vec d ℝ) :
    (queryRow env indices points pos).Perm
      ((indices.zip points).map fun p => (npRound 6 (distance p.2 pos), p.1)) ∧
    ((queryRow env indices points pos).map Prod.fst).Pairwise (· ≤ ·) := by
  obtain ⟨sel, drop, w, hsel, hdrop, -, -, -, hw, hN, hD⟩ :=
    kdQuery_normal env points points.length h0 ⊤ [pos] (some distDecimals) true false
  have hdf : drop = false := by
    cases drop with
    | false => rfl
    | true => exact absurd (hdrop.1 rfl).1 (by simp)
  subst hdf
  have hw' : w = points.length := by simpa using hw rfl
  subst hw'
  have hp := isSel_perm (hsel pos)
  have hl : (sel pos).length = points.length := by simpa using hp.length_eq
  set g : ℕ → Option (ℝ × Idx d) := fun j =>
    indices[j]?.map fun idx => (npRound 6 (pointDist points pos j), idx) with hg
  have hrow : queryRow env indices points pos = (sel pos).filterMap g := by
    unfold queryRow
    simp only [hN, hD, Bool.toNat_false, List.drop_zero, List.map_cons, List.map_nil,
      List.flatten_cons, List.flatten_nil, List.append_nil, hl, Nat.sub_self, List.replicate_zero]
    rw [List.zip_map_left, List.filterMap_map]
    have hz : (sel pos).zip (sel pos) = (sel pos).map fun j => (j, j) := by
      simp [List.zip, List.zipWith_self]
    rw [hz, List.filterMap_map]
    refine List.filterMap_congr ?_
    intro j _
    simp only [Function.comp_apply, Prod.map_apply, id, hg]
    cases indices[j]? <;> rfl
  have hrange : ((List.range points.length).filterMap g) =
      (indices.zip points).map fun p => (npRound 6 (distance p.2 pos), p.1) := by
    rw [filterMap_eq_map' g (fun j => (npRound 6 (pointDist points pos j),
      (indices[j]?).getD 0))]
    · apply List.ext_getElem?
      intro j
      rw [List.getElem?_map, List.getElem?_map]
      by_cases hj : j < points.length
      · rw [List.getElem?_range hj, List.getElem?_eq_getElem (by simp; omega)]
        have h1 : points[j]? = some points[j] := List.getElem?_eq_getElem hj
        have h2 : indices[j]? = some (indices[j]'(by omega)) := List.getElem?_eq_getElem _
        simp [pointDist, h1, h2]
      · rw [List.getElem?_eq_none (by simpa using hj),
          List.getElem?_eq_none (by simp; omega)]
        rfl
    · intro j hj
      rw [List.mem_range] at hj
      have h2 : indices[j]? = some (indices[j]'(by omega)) := List.getElem?_eq_getElem _
      simp [hg, h2]
  refine ⟨?_, ?_⟩
  · rw [hrow, ← hrange]
    exact hp.filterMap g
  · rw [hrow]
    have hs := (hsel pos).sorted
    rw [List.pairwise_map] at hs
    rw [List.pairwise_map, List.pairwise_filterMap]
    refine hs.imp ?_
    intro a a' haa b hb b' hb'
    simp only [hg, Option.map_eq_some_iff] at hb hb'
    obtain ⟨_, -, rfl⟩ := hb
    obtain ⟨_, -, rfl⟩ := hb'
    exact npRound_mono haa

/-! ### per pair of atoms -/

section
variable {K : Type*} [Field K] [LinearOrder K] [FloorRing K] [HasSqrt K]

theorem pairDict_eq (row : List (K × Idx d)) (a2 : ℕ) :
    pairDict row a2 = NDict.extendAll [] ((row.filter fun p =>
      decide (p.1 ≠ 0) && decide (p.2.alpha = (a2 : ℤ))).map fun p => (p.1, [p.2])) := by
  unfold pairDict NDict.extendAll
  rw [List.foldl_map]

theorem pairDict_pairs (row : List (K × Idx d)) (a2 : ℕ) :
    (pairDict row a2).pairs.Perm
      (row.filter fun p => decide (p.1 ≠ 0) && decide (p.2.alpha = (a2 : ℤ))) := by
  rw [pairDict_eq]
  refine (NDict.pairs_extendAll _ _).trans ?_
  have : NDict.pairs ([] : NDict d K) = [] := rfl
  rw [this, List.nil_append]
  generalize row.filter _ = l
  simp [NDict.pairs, List.flatMap_map]

theorem pairDict_wf (row : List (K × Idx d)) (a2 : ℕ) : (pairDict row a2).WF := by
  rw [pairDict_eq]
  refine NDict.WF.nil.extendAll ?_
  intro q hq
  obtain ⟨p, -, rfl⟩ := List.mem_map.1 hq
  simp

theorem pairDict_sorted (row : List (K × Idx d)) (a2 : ℕ)
    (h : (row.map Prod.fst).Pairwise (· ≤ ·)) : (pairDict row a2).keys.Pairwise (· < ·) := by
  rw [pairDict_eq]
  refine NDict.keys_extendAll_sorted _ _ List.Pairwise.nil ?_ (by intro k hk; simp [NDict.keys] at hk)
  rw [List.map_map]
  have h1 : (Prod.fst ∘ fun p : K × Idx d => (p.1, [p.2])) = Prod.fst := rfl
  rw [h1]
  rw [List.pairwise_map] at h ⊢
  exact h.filter _

theorem trimDict_eq (m : ℕ) (D : NDict d K) (h : D.keys.Pairwise (· < ·)) :
    trimDict m D = D.take m := by
  have hs : D.sortedKeys = D.keys := by
    unfold NDict.sortedKeys
    exact List.Pairwise.insertionSort_eq (h.imp le_of_lt)
  unfold trimDict
  rw [hs]
  have hk : D.keys.take m = (D.take m).map Prod.fst := by
    unfold NDict.keys
    rw [List.map_take]
  rw [hk]
  conv_lhs => rw [← List.take_append_drop m D]
  rw [List.filter_append]
  have h1 : (List.take m D).filter (fun p => decide (p.1 ∈ (List.take m D).map Prod.fst)) =
      D.take m := by
    rw [List.filter_eq_self]
    intro p hp
    simp only [decide_eq_true_eq]
    exact List.mem_map.2 ⟨p, hp, rfl⟩
  have h2 : (List.drop m D).filter (fun p => decide (p.1 ∈ (List.take m D).map Prod.fst)) = [] := by
    rw [List.filter_eq_nil_iff]
    intro p hp
    simp only [decide_eq_true_eq]
    intro hq
    obtain ⟨q, hq, hqp⟩ := List.mem_map.1 hq
    have h3 : (D.take m ++ D.drop m).Pairwise (fun p q => p.1 < q.1) := by
      rw [List.take_append_drop]
      unfold NDict.keys at h
      rwa [List.pairwise_map] at h
    have := (List.pairwise_append.1 h3).2.2 q hq p hp
    exact absurd hqp this.ne
  have hh : (List.filter (fun p => decide (p.1 ∈ (List.take m D).map Prod.fst))
      (List.take m D) ++ List.filter (fun p => decide (p.1 ∈ (List.take m D).map Prod.fst))
      (List.drop m D)) = D.take m := by rw [h1, h2, List.append_nil]
  convert hh using 3 <;> simp [List.take_append_drop]

end

/-! ### the searched levels of a pair -/

/-- Position of atom `b` of the home cell (origin if there is none; only used for `b < numBase`). -/
noncomputable def posOf (S : Structure d ℝ) (b : ℕ) : Vec d ℝ := (S.positions[b]?).getD 0

/-- Rounded distance between atom `b` in cell `n` and atom `a` in the home cell. -/
noncomputable def siteDist (S : Structure d ℝ) (a b : ℕ) (n : Fin d → ℤ) : ℝ :=
  npRound 6 (distance (S.basis.translate n (S.posOf b)) (S.posOf a))

/-- The distinct non-zero rounded distances of the sites of atom `b` in the given cells from atom
`a` in the home cell, ascending. -/
noncomputable def levels (S : Structure d ℝ) (cells : List (Fin d → ℤ)) (a b : ℕ) : List ℝ :=
  npUnique ((cells.map (S.siteDist a b)).filter fun x => decide (x ≠ 0))

theorem posOf_eq {S : Structure d ℝ} {b : ℕ} {p : Vec d ℝ} (h : S.positions[b]? = some p) :
    S.posOf b = p := by simp [posOf, h]

theorem getPositions_siteList (S : Structure d ℝ) (hS : S.positions.length = S.numBase)
    (cells : List (Fin d → ℤ)) :
    S.getPositions (siteList S.numBase cells) = .ok ((siteList S.numBase cells).map fun idx =>
      S.basis.translate idx.cell (S.posOf idx.alpha.toNat)) := by
  unfold getPositions
  apply mapM_ok
  intro idx hidx
  obtain ⟨-, b, hb, ha⟩ := mem_siteList.1 hidx
  rw [ha]
  have h1 : pyGet S.positions (b : ℤ) = some (S.positions[b]'(by omega)) := by
    unfold pyGet
    rw [if_pos (by omega), Int.toNat_natCast, List.getElem?_eq_getElem]
  rw [h1]
  have h2 : S.posOf b = S.positions[b]'(by omega) := posOf_eq (List.getElem?_eq_getElem _)
  simp [h2]

/-- The raw entry of the pair `(a, b)`. -/
noncomputable def rawDict (env : Env ℝ) (S : Structure d ℝ) (cells : List (Fin d → ℤ)) (a b : ℕ) :
    NDict d ℝ :=
  pairDict (queryRow env (siteList S.numBase cells) ((siteList S.numBase cells).map fun idx =>
      S.basis.translate idx.cell (S.posOf idx.alpha.toNat)) (S.posOf a)) b

theorem rawDict_spec (env : Env ℝ) (S : Structure d ℝ) (cells : List (Fin d → ℤ))
    (hc : cells.Nodup) (hne : cells ≠ []) (a b : ℕ) (hb : b < S.numBase) :
    (rawDict env S cells a b).keys = S.levels cells a b ∧ (rawDict env S cells a b).WF ∧
    (rawDict env S cells a b).pairs.Nodup ∧
    ∀ x idx, (x, idx) ∈ (rawDict env S cells a b).pairs ↔
      ∃ n ∈ cells, idx = Idx.mk n (b : ℤ) ∧ x = S.siteDist a b n ∧ x ≠ 0 := by
  set sites := siteList S.numBase cells with hsites
  set points := sites.map fun idx => S.basis.translate idx.cell (S.posOf idx.alpha.toNat)
    with hpoints
  have hpos : 0 < points.length := by
    rw [hpoints, List.length_map, hsites, siteList_length]
    exact Nat.mul_pos (List.length_pos_iff.2 hne) (by omega)
  obtain ⟨hperm, hsort⟩ := queryRow_spec env sites points (by simp [hpoints]) hpos (S.posOf a)
  have hz : (sites.zip points).map (fun p => (npRound 6 (distance p.2 (S.posOf a)), p.1)) =
      sites.map fun idx => (npRound 6 (distance (S.basis.translate idx.cell
        (S.posOf idx.alpha.toNat)) (S.posOf a)), idx) := by
    rw [hpoints, List.zip_map_right, List.map_map]
    have : sites.zip sites = sites.map fun j => (j, j) := by simp [List.zip, List.zipWith_self]
    rw [this, List.map_map]
    rfl
  rw [hz] at hperm
  have hwf : (rawDict env S cells a b).WF :=
    pairDict_wf (queryRow env sites points (S.posOf a)) b
  have hps := pairDict_pairs (queryRow env sites points (S.posOf a)) b
  have hmem : ∀ x idx, (x, idx) ∈ (rawDict env S cells a b).pairs ↔
      ∃ n ∈ cells, idx = Idx.mk n (b : ℤ) ∧ x = S.siteDist a b n ∧ x ≠ 0 := by
    intro x idx
    have h1 : (x, idx) ∈ (rawDict env S cells a b).pairs ↔
        (x, idx) ∈ (queryRow env sites points (S.posOf a)).filter fun p =>
          decide (p.1 ≠ 0) && decide (p.2.alpha = (b : ℤ)) := hps.mem_iff
    rw [h1, List.mem_filter, hperm.mem_iff, List.mem_map]
    simp only [Bool.and_eq_true, decide_eq_true_eq, Prod.mk.injEq]
    constructor
    · rintro ⟨⟨idx', h2, h3, rfl⟩, h4, h5⟩
      have h6 := mem_siteList.1 h2
      refine ⟨idx'.cell, h6.1, ?_, ?_, h4⟩
      · rw [← h5, Idx.mk_cell_alpha]
      · rw [← h3, h5]
        simp [siteDist]
    · rintro ⟨n, hn, rfl, rfl, h4⟩
      refine ⟨⟨_, mem_siteList.2 ⟨by simpa using hn, b, hb, by simp⟩, ?_, rfl⟩, h4, by simp⟩
      simp [siteDist]
  refine ⟨?_, hwf, ?_, hmem⟩
  · refine eq_of_pairwise_lt (pairDict_sorted _ _ hsort) (npUnique_pairwise_lt _) ?_
    intro x
    have h1 := NDict.mem_keys_iff hwf (k := x)
    rw [h1]
    unfold levels
    rw [mem_npUnique, List.mem_filter, List.mem_map]
    simp only [decide_eq_true_eq]
    constructor
    · rintro ⟨idx, h⟩
      obtain ⟨n, hn, -, h2, h3⟩ := (hmem x idx).1 h
      exact ⟨⟨n, hn, h2.symm⟩, h3⟩
    · rintro ⟨⟨n, hn, h2⟩, h3⟩
      exact ⟨_, (hmem x _).2 ⟨n, hn, rfl, h2.symm, h3⟩⟩
  · refine hps.nodup_iff.2 (List.Nodup.filter _ (hperm.nodup_iff.2 ?_))
    refine (siteList_nodup hc).map ?_
    intro i j hij
    exact (Prod.mk.inj hij).2

/-! ### the whole analysis -/

theorem ConnMatrix.mem_entries {c : ConnMatrix} {v : ℕ} :
    v ∈ c.entries ↔ ∃ i < c.size, ∃ j < c.size, v = c.entry i j := by
  unfold ConnMatrix.entries
  simp only [List.mem_flatMap, List.mem_range, List.mem_map]
  constructor
  · rintro ⟨i, hi, j, hj, rfl⟩; exact ⟨i, hi, j, hj, rfl⟩
  · rintro ⟨i, hi, j, hj, rfl⟩; exact ⟨i, hi, j, hj, rfl⟩

theorem ConnMatrix.allZero_iff {c : ConnMatrix} :
    c.allZero = true ↔ ∀ i < c.size, ∀ j < c.size, c.entry i j = 0 := by
  unfold ConnMatrix.allZero
  rw [List.all_eq_true]
  constructor
  · intro h i hi j hj
    simpa using h _ (ConnMatrix.mem_entries.2 ⟨i, hi, j, hj, rfl⟩)
  · intro h v hv
    obtain ⟨i, hi, j, hj, rfl⟩ := ConnMatrix.mem_entries.1 hv
    simpa using h i hi j hj

theorem ConnMatrix.max?_ok {c : ConnMatrix} (h : c.allZero = false) :
    ∃ m, c.max? = .ok m ∧ 0 < m ∧ (∀ i < c.size, ∀ j < c.size, c.entry i j ≤ m) ∧
      ∃ i < c.size, ∃ j < c.size, c.entry i j = m := by
  unfold ConnMatrix.max?
  cases he : c.entries with
  | nil =>
    unfold ConnMatrix.allZero at h
    rw [he] at h
    simp at h
  | cons x xs =>
    obtain ⟨h1, h2⟩ := foldl_max_isGreatest xs x
    have hle : ∀ i < c.size, ∀ j < c.size, c.entry i j ≤ xs.foldl max x := by
      intro i hi j hj
      have : c.entry i j ∈ c.entries := ConnMatrix.mem_entries.2 ⟨i, hi, j, hj, rfl⟩
      rw [he, List.mem_cons] at this
      exact h2 this
    refine ⟨_, rfl, ?_, hle, ?_⟩
    · by_contra h0
      have h0 : xs.foldl max x = 0 := by omega
      rw [← Bool.not_eq_true, ConnMatrix.allZero_iff] at h
      apply h
      intro i hi j hj
      have := hle i hi j hj
      omega
    · have : xs.foldl max x ∈ c.entries := by
        rw [he, List.mem_cons]; exact h1
      obtain ⟨i, hi, j, hj, h⟩ := ConnMatrix.mem_entries.1 this
      exact ⟨i, hi, j, hj, h.symm⟩

theorem computeBaseNeighbors_eq (env : Env ℝ) (S : Structure d ℝ)
    (hS : S.positions.length = S.numBase) (m : ℕ) (cells : List (Fin d → ℤ))
    (hc : S.basis.getNeighborCells (2 * m) true (fun a b => decide (a ≤ b)) = .ok cells) :
    cells.Nodup ∧ cells ≠ [] ∧
    computeBaseNeighbors env S m = .ok ((List.range S.numBase).map fun a =>
      (List.range S.numBase).map fun b => (rawDict env S cells a b).take m) := by
  obtain ⟨maxdist, -, hnd, h0, -⟩ := S.basis.neighborCells_spec _ _ _ _ hc
  have h0 : (0 : Fin d → ℤ) ∈ cells := h0.2 rfl
  have hne : cells ≠ [] := List.ne_nil_of_mem h0
  refine ⟨hnd, hne, ?_⟩
  unfold computeBaseNeighbors
  rw [hc]
  dsimp only
  rw [stackIndices_eq]
  dsimp only
  have := getPositions_siteList S hS cells
  unfold siteList at this
  rw [this]
  dsimp only
  apply mapM_ok
  intro a ha
  rw [List.mem_range] at ha
  have h1 : S.positions[a]? = some (S.posOf a) := by
    rw [List.getElem?_eq_getElem (by omega), posOf_eq (List.getElem?_eq_getElem _)]
  rw [h1]
  dsimp only
  congr 1
  refine List.map_congr_left ?_
  intro b hb
  rw [List.mem_range] at hb
  rw [trimDict_eq]
  · rfl
  · have := (rawDict_spec env S cells hnd hne a b hb).1
    unfold rawDict siteList at this
    rw [this]
    exact npUnique_pairwise_lt _

/-- Normal form of the results of `analyze`. -/
structure IsAnalysis (S : Structure d ℝ) (cells : List (Fin d → ℤ)) (m : ℕ) (c : ConnMatrix)
    (A : Analysis d ℝ) : Prop where
  base_length : A.base.length = S.numBase
  base : ∀ (a : ℕ) D, A.base[a]? = some D → D.WF ∧ D.pairs.Nodup ∧
    ∀ x idx, (x, idx) ∈ D.pairs ↔ ∃ b < S.numBase, ∃ n ∈ cells, idx = Idx.mk n (b : ℤ) ∧
      x = S.siteDist a b n ∧ x ∈ (S.levels cells a b).take (c.entry a b)
  distMatrix : A.distMatrix = (List.range S.numBase).map fun a =>
    (List.range S.numBase).map fun b => (S.levels cells a b).take (c.entry a b)
  numNeighbors : A.numNeighbors = A.base.map fun D => wrapSigned 8 (D.pairs.length : ℤ)
  distances : A.distances = A.base.map fun D =>
    padDists A.distMatrix.flatten.flatten.dedup.length D.keys
  rawDistances : A.rawDistances = (List.range S.numBase).map fun a =>
    (List.range S.numBase).map fun b => (S.levels cells a b).take m
  rawNum : A.rawNum = (List.range S.numBase).map fun a => (List.range S.numBase).map fun b =>
    (cells.filter fun n => decide (S.siteDist a b n ∈ (S.levels cells a b).take m)).length

theorem NDict.keys_take {K : Type*} [LinearOrder K] (D : NDict d K) (m : ℕ) :
    NDict.keys (D.take m) = D.keys.take m := by
  unfold NDict.keys; rw [List.map_take]

theorem NDict.wf_take {K : Type*} [LinearOrder K] {D : NDict d K} (h : D.WF) (m : ℕ) :
    NDict.WF (D.take m) := by
  constructor
  · rw [NDict.keys_take]
    exact h.1.sublist (List.take_sublist _ _)
  · intro p hp
    exact h.2 p (List.mem_of_mem_take hp)

theorem NDict.mem_pairs_take {K : Type*} [LinearOrder K] {D : NDict d K} (h : D.WF) (m : ℕ)
    (x : K) (idx : Idx d) :
    (x, idx) ∈ NDict.pairs (D.take m) ↔ (x, idx) ∈ D.pairs ∧ x ∈ D.keys.take m := by
  rw [NDict.mem_pairs, NDict.mem_pairs]
  constructor
  · rintro ⟨xs, h1, h2⟩
    refine ⟨⟨xs, List.mem_of_mem_take h1, h2⟩, ?_⟩
    rw [← NDict.keys_take]
    exact List.mem_map.2 ⟨_, h1, rfl⟩
  · rintro ⟨⟨xs, h1, h2⟩, h3⟩
    rw [← NDict.keys_take] at h3
    obtain ⟨⟨y, ys⟩, h4, h5⟩ := List.mem_map.1 h3
    dsimp only at h5
    subst h5
    have e1 := (NDict.get?_eq_some h.1).2 h1
    have e2 := (NDict.get?_eq_some h.1).2 (List.mem_of_mem_take h4)
    rw [e1] at e2
    cases e2
    exact ⟨xs, h4, h2⟩

theorem NDict.pairs_append {K : Type*} [LinearOrder K] (D E : NDict d K) :
    NDict.pairs (D ++ E) = D.pairs ++ E.pairs := by
  simp [NDict.pairs]

theorem NDict.pairs_nodup_take {K : Type*} [LinearOrder K] {D : NDict d K} (h : D.pairs.Nodup)
    (m : ℕ) : (NDict.pairs (D.take m)).Nodup := by
  rw [← List.take_append_drop m D, NDict.pairs_append] at h
  exact (List.nodup_append.1 h).1

/-- `mergeRow` as one fold. -/
theorem mergeRow_eq {K : Type*} [LinearOrder K] (conn : ConnMatrix) (a : ℕ) (raw : List (NDict d K)) :
    mergeRow conn a raw = NDict.extendAll [] (raw.zipIdx.flatMap fun p =>
      p.1.take (conn.entry a p.2)) := by
  unfold mergeRow NDict.extendAll
  rw [List.foldl_flatMap]

theorem zipIdx_range_map {α : Type*} (n : ℕ) (f : ℕ → α) :
    ((List.range n).map f).zipIdx = (List.range n).map fun i => (f i, i) := by
  apply List.ext_getElem?
  intro i
  rw [List.getElem?_zipIdx, List.getElem?_map, List.getElem?_map]
  by_cases h : i < n
  · simp [List.getElem?_range h]
  · simp [List.getElem?_eq_none (l := List.range n) (by simpa using h)]

theorem pairs_flatMap {K α : Type*} [LinearOrder K] (l : List α) (f : α → NDict d K) :
    NDict.pairs (l.flatMap f) = l.flatMap fun a => (f a).pairs := by
  unfold NDict.pairs
  rw [List.flatMap_assoc]

theorem isAnalysis_analysisOf (env : Env ℝ) (S : Structure d ℝ) (cells : List (Fin d → ℤ))
    (hnd : cells.Nodup) (hne : cells ≠ []) (m : ℕ) (c : ConnMatrix)
    (hm : ∀ i < S.numBase, ∀ j < S.numBase, c.entry i j ≤ m) :
    IsAnalysis S cells m c (analysisOf c ((List.range S.numBase).map fun a =>
      (List.range S.numBase).map fun b => (rawDict env S cells a b).take m)) := by
  have hraw := fun a b (hb : b < S.numBase) => rawDict_spec env S cells hnd hne a b hb
  -- connected part of the raw dictionary
  have htake : ∀ a < S.numBase, ∀ b < S.numBase,
      ((rawDict env S cells a b).take m).take (c.entry a b) =
        (rawDict env S cells a b).take (c.entry a b) := by
    intro a ha b hb
    rw [List.take_take, Nat.min_eq_left (hm a ha b hb)]
  set raw := (List.range S.numBase).map fun a =>
      (List.range S.numBase).map fun b => (rawDict env S cells a b).take m with hrawdef
  have hbase : (analysisOf c raw).base = (List.range S.numBase).map fun a =>
      NDict.extendAll [] ((List.range S.numBase).flatMap fun b =>
        (rawDict env S cells a b).take (c.entry a b)) := by
    simp only [analysisOf]
    rw [hrawdef, zipIdx_range_map, List.map_map]
    refine List.map_congr_left ?_
    intro a ha
    rw [List.mem_range] at ha
    simp only [Function.comp_apply]
    rw [mergeRow_eq, zipIdx_range_map, List.flatMap_map]
    congr 1
    refine List.flatMap_congr ?_
    intro b hb
    rw [List.mem_range] at hb
    exact htake a ha b hb
  have hdm : (analysisOf c raw).distMatrix = (List.range S.numBase).map fun a =>
      (List.range S.numBase).map fun b => (S.levels cells a b).take (c.entry a b) := by
    simp only [analysisOf]
    rw [hrawdef, zipIdx_range_map, List.map_map]
    refine List.map_congr_left ?_
    intro a ha
    rw [List.mem_range] at ha
    simp only [Function.comp_apply, distRow]
    rw [zipIdx_range_map, List.map_map]
    refine List.map_congr_left ?_
    intro b hb
    rw [List.mem_range] at hb
    simp only [Function.comp_apply]
    rw [NDict.keys_take, List.take_take, Nat.min_eq_left (hm a ha b hb), (hraw a b hb).1]
    refine List.Pairwise.insertionSort_eq ?_
    exact ((npUnique_pairwise_le _).sublist (List.take_sublist _ _))
  refine ⟨by rw [hbase]; simp, ?_, hdm, ?_, rfl, ?_, ?_⟩
  · intro a D hD
    have ha : a < S.numBase := by
      by_contra h
      rw [List.getElem?_eq_none (by rw [hbase]; simpa using h)] at hD
      cases hD
    rw [hbase, List.getElem?_map, List.getElem?_range ha] at hD
    simp only [Option.map_some, Option.some.injEq] at hD
    subst hD
    have hwf : (NDict.extendAll ([] : NDict d ℝ) ((List.range S.numBase).flatMap fun b =>
        (rawDict env S cells a b).take (c.entry a b))).WF := by
      refine NDict.WF.nil.extendAll ?_
      intro q hq
      obtain ⟨b, hb, hq⟩ := List.mem_flatMap.1 hq
      exact (hraw a b (List.mem_range.1 hb)).2.1.2 q (List.mem_of_mem_take hq)
    have hperm := NDict.pairs_extendAll ([] : NDict d ℝ) ((List.range S.numBase).flatMap fun b =>
        (rawDict env S cells a b).take (c.entry a b))
    have hnil : NDict.pairs ([] : NDict d ℝ) = [] := rfl
    rw [hnil, List.nil_append, pairs_flatMap] at hperm
    have key : ∀ b < S.numBase, ∀ x idx, (x, idx) ∈ NDict.pairs ((rawDict env S cells a b).take
        (c.entry a b)) ↔ ∃ n ∈ cells, idx = Idx.mk n (b : ℤ) ∧ x = S.siteDist a b n ∧
          x ∈ (S.levels cells a b).take (c.entry a b) := by
      intro b hb x idx
      rw [NDict.mem_pairs_take (hraw a b hb).2.1, (hraw a b hb).2.2.2, (hraw a b hb).1]
      constructor
      · rintro ⟨⟨n, hn, h1, h2, h3⟩, h4⟩
        exact ⟨n, hn, h1, h2, h4⟩
      · rintro ⟨n, hn, h1, h2, h4⟩
        refine ⟨⟨n, hn, h1, h2, ?_⟩, h4⟩
        have h5 := List.mem_of_mem_take h4
        unfold levels at h5
        rw [mem_npUnique, List.mem_filter] at h5
        simpa using h5.2
    refine ⟨hwf, ?_, ?_⟩
    · rw [hperm.nodup_iff, List.nodup_flatMap]
      constructor
      · intro b hb
        exact NDict.pairs_nodup_take (hraw a b (List.mem_range.1 hb)).2.2.1 _
      · refine List.Pairwise.imp_of_mem ?_ List.nodup_range
        intro b b' hb hb' hne
        rw [Function.onFun, List.disjoint_left]
        rintro ⟨x, idx⟩ h1 h2
        obtain ⟨n, -, h3, -⟩ := (key b (List.mem_range.1 hb) x idx).1 h1
        obtain ⟨n', -, h4, -⟩ := (key b' (List.mem_range.1 hb') x idx).1 h2
        rw [h3] at h4
        have := (Idx.mk_inj.1 h4).2
        exact hne (by exact_mod_cast this)
    · intro x idx
      rw [hperm.mem_iff, List.mem_flatMap]
      constructor
      · rintro ⟨b, hb, h⟩
        rw [List.mem_range] at hb
        obtain ⟨n, hn, h⟩ := (key b hb x idx).1 h
        exact ⟨b, hb, n, hn, h⟩
      · rintro ⟨b, hb, n, hn, h⟩
        exact ⟨b, List.mem_range.2 hb, (key b hb x idx).2 ⟨n, hn, h⟩⟩
  · simp only [analysisOf, NDict.count_eq]
  · simp only [analysisOf]
    rw [hrawdef, List.map_map]
    refine List.map_congr_left ?_
    intro a _
    simp only [Function.comp_apply]
    rw [List.map_map]
    refine List.map_congr_left ?_
    intro b hb
    rw [List.mem_range] at hb
    simp only [Function.comp_apply]
    rw [NDict.keys_take, (hraw a b hb).1]
  · simp only [analysisOf]
    rw [hrawdef, List.map_map]
    refine List.map_congr_left ?_
    intro a _
    simp only [Function.comp_apply]
    rw [List.map_map]
    refine List.map_congr_left ?_
    intro b hb
    rw [List.mem_range] at hb
    simp only [Function.comp_apply]
    rw [NDict.count_eq]
    have hnd1 := NDict.pairs_nodup_take (hraw a b hb).2.2.1 m
    have hnd2 : ((cells.filter fun n => decide (S.siteDist a b n ∈
        (S.levels cells a b).take m)).map fun n => (S.siteDist a b n, Idx.mk n (b : ℤ))).Nodup := by
      refine (hnd.filter _).map ?_
      intro n n' h
      exact (Idx.mk_inj.1 (Prod.mk.inj h).2).1
    have hp : (NDict.pairs ((rawDict env S cells a b).take m)).Perm
        ((cells.filter fun n => decide (S.siteDist a b n ∈
          (S.levels cells a b).take m)).map fun n => (S.siteDist a b n, Idx.mk n (b : ℤ))) := by
      refine (List.perm_ext_iff_of_nodup hnd1 hnd2).2 ?_
      rintro ⟨x, idx⟩
      rw [NDict.mem_pairs_take (hraw a b hb).2.1, (hraw a b hb).2.2.2, (hraw a b hb).1,
        List.mem_map]
      simp only [List.mem_filter, decide_eq_true_eq, Prod.mk.injEq]
      constructor
      · rintro ⟨⟨n, hn, rfl, rfl, -⟩, h4⟩
        exact ⟨n, ⟨hn, h4⟩, rfl, rfl⟩
      · rintro ⟨n, ⟨hn, h4⟩, rfl, rfl⟩
        refine ⟨⟨n, hn, rfl, rfl, ?_⟩, h4⟩
        have h5 := List.mem_of_mem_take h4
        unfold levels at h5
        rw [mem_npUnique, List.mem_filter] at h5
        simpa using h5.2
    rw [hp.length_eq, List.length_map]

/-- `analyze` succeeds on a consistent structure with a connection, and its result is described by
`IsAnalysis`. -/
theorem analyze_ok (env : Env ℝ) (S : Structure d ℝ) {rows : Matrix (Fin d) (Fin d) ℝ}
    (hb : LatticeBasis.init rows = .ok S.basis) (hd : 0 < d)
    (hS : S.positions.length = S.numBase) (ha : S.atoms ≠ []) {c : ConnMatrix}
    (hc : S.conn = some c) (hcs : c.size = S.numBase) (hz : c.allZero = false) :
    ∃ cells m A, c.max? = .ok m ∧ 0 < m ∧
      S.basis.getNeighborCells (2 * m) true (fun a b => decide (a ≤ b)) = .ok cells ∧
      S.analyze env = ({ S with frozen := true, analysis := some A }, .ok ()) ∧
      IsAnalysis S cells m c A := by
  obtain ⟨m, hm, hm0, hle, -⟩ := ConnMatrix.max?_ok hz
  obtain ⟨cells, hcells⟩ := LatticeBasis.getNeighborCells_ok hb hd (2 * m) true
    (fun a b => decide (a ≤ b))
  obtain ⟨hnd, hne, hcb⟩ := computeBaseNeighbors_eq env S hS m cells hcells
  refine ⟨cells, m, _, hm, hm0, hcells, ?_, isAnalysis_analysisOf env S cells hnd hne m c
    (by rw [← hcs]; exact hle)⟩
  unfold analyze
  rw [if_neg (by simpa using ha), hc]
  dsimp only
  rw [if_neg (by simp [hz]), hm]
  dsimp only
  rw [hcb]

end Structure
end Lattpy

import Verif.Lemmas.Data

/-! # Properties C46 – C58 (`data.py`) -/

set_option autoImplicit false
set_option linter.unusedSectionVars false

namespace Lattpy
open LatticeData

variable {d : ℕ} {K : Type*}

/-! ## C46 set / get -/

/-- C46 (restricted to at most 256 different distances and tables that contain an infinite
distance): after `set` the site data are those given; `get_neighbors(i)` returns exactly the
entries of row `i` with finite distance, in order; restricted to a level those at the distance
of that level; the stored levels look up the given distances; nothing is periodic. -/
theorem C46_set_get_partial [LinearOrder K] (indices : List (Fin (d + 1) → ℤ))
    (positions : List (Vec d K)) (neighbors : List (List ℕ)) (distances : List (List (WithTop K)))
    (hinf : ⊤ ∈ distances.flatten) (h256 : distances.flatten.dedup.length ≤ 256) :
    ∃ D, LatticeData.set indices positions neighbors distances = .ok D ∧
      D.indices = indices ∧ D.positions = positions ∧
      (∀ (i : ℕ) nr dr, neighbors[i]? = some nr → distances[i]? = some dr →
        nr.length = dr.length →
        D.getNeighbors i none none false =
          .ok (((nr.zip dr).filter fun p => decide (p.2 ≠ ⊤)).map Prod.fst) ∧
        (∀ l x, D.distvals[l]? = some x → D.getNeighbors i (some l) none false =
          .ok (((nr.zip dr).filter fun p => decide (p.2 = x)).map Prod.fst)) ∧
        D.getNeighbors i none (some true) false = .ok []) ∧
      (∀ (i : ℕ) dr, distances[i]? = some dr →
        ∃ lr, D.distances[i]? = some lr ∧ lr.map (fun l => D.distvals[l]?) = dr.map some) ∧
      D.distvals.Pairwise (· < ·) := by
  refine ⟨_, set_ok indices positions neighbors distances ⊤ hinf (fun x _ => le_top) h256, rfl, rfl,
    ?_, ?_, npUnique_pairwise_lt _⟩
  · intro i nr dr hn hd hl
    have hmem : ∀ x ∈ dr, x ∈ distances.flatten := fun x hx =>
      List.mem_flatten.2 ⟨dr, List.mem_of_getElem? hd, hx⟩
    have hz1 : nr = (nr.zip dr).map Prod.fst := (List.map_fst_zip (by omega)).symm
    have hz2 : dr = (nr.zip dr).map Prod.snd := (List.map_snd_zip (by omega)).symm
    have hzm : ∀ p ∈ nr.zip dr, p.2 ∈ distances.flatten := fun p hp =>
      hmem _ (List.of_mem_zip hp).2
    generalize nr.zip dr = z at hz1 hz2 hzm
    subst hz1 hz2
    simp only [LatticeData.getNeighbors, neighborMask, List.getElem?_map, hn, hd, Option.map_some,
      List.map_map]
    refine ⟨?_, ?_, ?_⟩
    · simp only [if_neg Bool.false_ne_true]
      rw [show (List.map ((fun x => decide (x < searchsorted (npUnique distances.flatten) ⊤)) ∘
        searchsorted (npUnique distances.flatten) ∘ Prod.snd) z) =
        z.map fun p => decide (p.2 ≠ ⊤) from ?_]
      · rw [maskRow_map]
      · apply List.map_congr_left
        intro p hp
        simp only [Function.comp_apply, searchsorted_lt_iff (hzm p hp) hinf, lt_top_iff_ne_top]
    · intro l x hx
      have hxm : x ∈ distances.flatten := mem_npUnique.1 (List.mem_of_getElem? hx)
      have hl' := searchsorted_eq_of_getElem? (npUnique_pairwise_lt _) hx
      simp only [if_neg Bool.false_ne_true]
      rw [show (List.map ((fun x => decide (x = l)) ∘
        searchsorted (npUnique distances.flatten) ∘ Prod.snd) z) =
        z.map fun p => decide (p.2 = x) from ?_]
      · rw [maskRow_map]
      · apply List.map_congr_left
        intro p hp
        simp only [Function.comp_apply, ← hl']
        congr 1
        apply propext
        constructor
        · intro h
          have h1 := npUnique_searchsorted (hzm p hp)
          rw [h, npUnique_searchsorted hxm] at h1
          exact (Option.some.inj h1).symm
        · rintro rfl; rfl
    · simp only [if_neg Bool.false_ne_true]
      rw [List.zipWith_map, List.zipWith_self]
      simp only [Function.comp_apply, Bool.and_false]
      rw [maskRow_map]
      simp
  · intro i dr hd
    refine ⟨dr.map (searchsorted (npUnique distances.flatten)),
      by simp only [List.getElem?_map, hd, Option.map_some], ?_⟩
    rw [List.map_map]
    apply List.map_congr_left
    intro x hx
    exact npUnique_searchsorted (List.mem_flatten.2 ⟨dr, List.mem_of_getElem? hd, hx⟩)

/-- A chain of three sites, as produced by a build. -/
def chain3Nbrs : List (List ℕ) := [[1, 3], [0, 2], [1, 3]]
/-- Distances of the chain of three sites. -/
def chain3Dists : List (List (WithTop ℚ)) := [[1, ⊤], [1, 1], [1, ⊤]]

example : (⊤ : WithTop ℚ) ∈ chain3Dists.flatten := by decide +kernel
example : chain3Dists.flatten.dedup.length ≤ 256 := by decide +kernel

/-- C46 fails for a table without an infinite distance: the invalid level is then the largest
valid one and the most distant neighbours are lost (here both of two sites at distance 1). -/
theorem C46_no_inf_fails :
    ∃ D : LatticeData 1 ℚ, LatticeData.set [![0, 0], ![1, 0]] [![0], ![1]] [[1], [0]] [[1], [1]]
      = .ok D ∧ D.getNeighbors 0 none none false = .ok [] := by
  refine ⟨_, set_ok _ _ _ _ 1 (by decide +kernel) (by decide +kernel) (by decide +kernel), ?_⟩
  decide +kernel

/-- C46 fails for a table without columns: `set` raises `ValueError`. -/
theorem C46_no_columns_fails [LinearOrder K] (indices : List (Fin (d + 1) → ℤ))
    (positions : List (Vec d K)) (neighbors : List (List ℕ)) (n : ℕ) :
    LatticeData.set indices positions neighbors (List.replicate n []) = .error .value := by
  have : (createLookupTable (List.replicate n ([] : List (WithTop K))).flatten 8).2 = [] := by
    rw [lookup_eq_map]; simp
  unfold LatticeData.set
  simp only [this]

/-! ## C47 selections -/

/-- C47, levels: `iter_neighbors(i)` yields strictly ascending valid levels, each with the
neighbours at that level, and together they are all neighbours of `i` (with multiplicity). -/
theorem C47_level_partition {D : LatticeData d K} {w : ℕ} (h : D.Rect w) (hv : D.Valid) {i : ℕ}
    (hi : i < D.numSites) (unique : Bool) :
    ∃ ls all, D.iterNeighbors i unique = .ok ls ∧
      D.getNeighbors i none none unique = .ok all ∧
      (ls.map Prod.fst).Pairwise (· < ·) ∧
      (∀ p ∈ ls, p.1 < D.invalidDistidx ∧ D.getNeighbors i (some p.1) none unique = .ok p.2) ∧
      (ls.flatMap Prod.snd).Perm all := by
  obtain ⟨r, hr, hm, hg⟩ := h.getNeighbors hi
  have hd : D.distances[i]? = some (r.map Entry.level) := by rw [h.cols.level]; simp [hr]
  set L := (npUnique (r.map Entry.level)).filter fun x => decide (x ≠ D.invalidDistidx) with hL
  set g : ℕ → ℕ × List ℕ := fun x =>
    (x, (r.filter (D.sel i (some x) none unique)).map Entry.nbr) with hgdef
  have hiter : D.iterNeighbors i unique = .ok (L.map g) := by
    unfold iterNeighbors
    rw [hd]
    simp only
    apply mapM_ok
    intro x _
    rw [hg]
  have hLmem : ∀ x ∈ L, x < D.invalidDistidx := by
    intro x hx
    rw [hL, List.mem_filter, mem_npUnique, List.mem_map] at hx
    obtain ⟨⟨e, he, rfl⟩, hne⟩ := hx
    rcases hv.entry r hm e he with h1 | h1
    · exact h1.1
    · simp [h1.1] at hne
  refine ⟨L.map g, _, hiter, hg none none unique, ?_, ?_, ?_⟩
  · rw [List.map_map]
    have : (Prod.fst ∘ g) = id := rfl
    rw [this, List.map_id]
    exact (npUnique_pairwise_lt _).filter _
  · intro p hp
    obtain ⟨x, hx, rfl⟩ := List.mem_map.1 hp
    exact ⟨hLmem x hx, hg _ _ _⟩
  · rw [List.flatMap_map]
    have h1 : (L.flatMap fun x => (g x).2) =
        (L.flatMap fun x => r.filter fun e => decide (e.level = x) &&
          (!unique || decide (i < e.nbr))).map Entry.nbr := by
      rw [List.map_flatMap]
      apply List.flatMap_congr
      intro x _
      simp only [hgdef]
      congr 1
      apply List.filter_congr
      intro e _
      simp [sel]
    rw [h1]
    refine (List.Perm.map _ (flatMap_filter_perm r Entry.level
      (fun e => !unique || decide (i < e.nbr)) L ((npUnique_nodup _).filter _))).trans ?_
    apply List.Perm.of_eq
    congr 1
    apply List.filter_congr
    intro e he
    have : e.level ∈ L ↔ e.level < D.invalidDistidx := by
      refine ⟨hLmem _, fun hlt => ?_⟩
      rw [hL, List.mem_filter, mem_npUnique]
      exact ⟨List.mem_map_of_mem he, by simpa using hlt.ne⟩
    simp only [sel, levelSel_none, this, Bool.and_true]

/-- C47, periodic: for every further selection the periodic and the regular neighbours together
are all of them (with multiplicity). -/
theorem C47_periodic_partition {D : LatticeData d K} {w : ℕ} (h : D.Rect w) {i : ℕ}
    (hi : i < D.numSites) (distidx : Option ℕ) (unique : Bool) :
    ∃ per reg all, D.getNeighbors i distidx (some true) unique = .ok per ∧
      D.getNeighbors i distidx (some false) unique = .ok reg ∧
      D.getNeighbors i distidx none unique = .ok all ∧ (per ++ reg).Perm all := by
  obtain ⟨r, hr, hm, hg⟩ := h.getNeighbors hi
  refine ⟨_, _, _, hg _ _ _, hg _ _ _, hg _ _ _, ?_⟩
  rw [← List.map_append]
  refine List.Perm.map _ ((filter_or_perm _ _ _ ?_).trans (List.Perm.of_eq ?_))
  · intro e _ he
    simp only [sel, Bool.and_eq_true, beq_iff_eq] at he
    rw [he.1.2] at he
    exact absurd he.2.2 (by simp)
  · apply List.filter_congr
    intro e _
    cases hp : e.per <;> simp [sel, hp]

theorem getNeighbors_unique {D : LatticeData d K} {w : ℕ} (h : D.Rect w) {i : ℕ}
    (hi : i < D.numSites) (distidx : Option ℕ) (periodic : Option Bool) :
    ∃ l, D.getNeighbors i distidx periodic false = .ok l ∧
      D.getNeighbors i distidx periodic true = .ok (l.filter fun n => decide (i < n)) := by
  obtain ⟨r, hr, hm, hg⟩ := h.getNeighbors hi
  refine ⟨_, hg _ _ _, ?_⟩
  rw [hg, List.filter_map, List.filter_filter]
  congr 2
  apply List.filter_congr
  intro e _
  cases hh : decide (i < e.nbr) <;> simp [sel, hh]

/-- C47, unique (restricted to links between two different sites): in a symmetric table the
links between `i` and `j` are each reported exactly once, all from the same end. -/
theorem C47_unique_once_partial {D : LatticeData d K} {w : ℕ} (h : D.Rect w) {i j : ℕ}
    (hi : i < D.numSites) (hj : j < D.numSites) (hij : i ≠ j) (distidx : Option ℕ)
    (periodic : Option Bool)
    (hsym : ∀ li lj, D.getNeighbors i distidx periodic false = .ok li →
      D.getNeighbors j distidx periodic false = .ok lj → li.count j = lj.count i) :
    ∃ li ui uj, D.getNeighbors i distidx periodic false = .ok li ∧
      D.getNeighbors i distidx periodic true = .ok ui ∧
      D.getNeighbors j distidx periodic true = .ok uj ∧
      ui.count j + uj.count i = li.count j ∧ (ui.count j = 0 ∨ uj.count i = 0) := by
  obtain ⟨li, h1, h2⟩ := getNeighbors_unique h hi distidx periodic
  obtain ⟨lj, h3, h4⟩ := getNeighbors_unique h hj distidx periodic
  have hs := hsym li lj h1 h3
  refine ⟨li, _, _, h1, h2, h4, ?_⟩
  rcases lt_or_gt_of_ne hij with hlt | hlt
  · have c1 : (li.filter fun n => decide (i < n)).count j = li.count j :=
      List.count_filter (by simpa using hlt)
    have c2 : (lj.filter fun n => decide (j < n)).count i = 0 :=
      List.count_eq_zero_of_not_mem (by simp; intros; omega)
    omega
  · have c1 : (li.filter fun n => decide (i < n)).count j = 0 :=
      List.count_eq_zero_of_not_mem (by simp; intros; omega)
    have c2 : (lj.filter fun n => decide (j < n)).count i = lj.count i :=
      List.count_filter (by simpa using hlt)
    omega

/-- A ring of three sites as data object (`0-1`, `1-2` regular, `2-0` periodic). -/
def ring3 : LatticeData 1 ℚ where
  indices := [![0, 0], ![1, 0], ![2, 0]]
  positions := [![0], ![1], ![2]]
  neighbors := [[1, 2], [0, 2], [1, 0]]
  distances := [[0, 0], [0, 0], [0, 0]]
  distvals := [1, ⊤]
  pnvecs := [[0, ![-1]], [0, 0], [0, ![1]]]
  pmask := [[false, true], [false, false], [false, true]]
  paxes := [[[1], [0]], [[1], [1]], [[1], [0]]]
  invalidIdx := 3
  invalidDistidx := 1
  dmap := none

theorem ring3_rect : ring3.Rect 2 :=
  ⟨rfl, ⟨rfl, by decide⟩, ⟨rfl, by decide⟩, ⟨rfl, by decide⟩,
    ⟨rfl, by intro r hr; simp [ring3] at hr; rcases hr with rfl | rfl | rfl <;> rfl⟩,
    ⟨rfl, by decide⟩⟩

theorem ring3_valid : ring3.Valid := by
  refine ⟨rfl, ?_⟩
  intro r hr e he
  left
  simp only [entries, ring3, zipTable, zipRow, List.mem_cons, List.not_mem_nil, or_false] at hr
  rcases hr with rfl | rfl | rfl <;>
    (simp only [List.mem_cons, List.not_mem_nil, or_false] at he
     rcases he with rfl | rfl <;> simp [ring3, numSites])

example : ring3.Rect 2 ∧ ring3.Valid ∧ 0 < ring3.numSites :=
  ⟨ring3_rect, ring3_valid, by decide⟩
example : ring3.iterNeighbors 0 false = .ok [(0, [1, 2])] := by decide +kernel
example : ring3.getNeighbors 0 none none false = .ok [1, 2] ∧
    ring3.getNeighbors 2 none none false = .ok [1, 0] := by decide +kernel
example : ring3.getNeighbors 0 none none true = .ok [1, 2] ∧
    ring3.getNeighbors 2 none none true = .ok [] := by decide +kernel

/-- One site that is its own periodic neighbour in both directions. -/
def loop1 : LatticeData 1 ℚ where
  indices := [![0, 0]]
  positions := [![0]]
  neighbors := [[0, 0]]
  distances := [[0, 0]]
  distvals := [1, ⊤]
  pnvecs := [[![-1], ![1]]]
  pmask := [[true, true]]
  paxes := [[[0], [0]]]
  invalidIdx := 1
  invalidDistidx := 1
  dmap := none

/-- C47 fails for a site that is its own (periodic) neighbour: the link is in the symmetric
table but `unique=True` reports it from no end. -/
theorem C47_unique_loop_fails :
    loop1.getNeighbors 0 none none false = .ok [0, 0] ∧
    loop1.getNeighbors 0 none none true = .ok [] := by decide +kernel

/-! ## C48 remove -/

theorem deleteRows_ok {α : Type*} (rows : List α) (sites : List ℕ) {N : ℕ} (hN : rows.length = N)
    (hs : ∀ s ∈ sites, s < N) :
    deleteRows rows sites = .ok (gather rows (keptSites sites N)) := by
  subst hN
  unfold deleteRows
  rw [if_pos (by simpa using hs)]
  rfl

theorem gather_kept {α : Type*} (rows : List α) (sites : List ℕ) {N : ℕ} (hN : rows.length = N)
    {i : ℕ} (hi : i < N) (his : i ∉ sites) :
    (gather rows (keptSites sites N))[newIndex sites i]? = rows[i]? := by
  rw [gather_getElem? _ _ (by intro k hk; simp [keptSites] at hk; omega),
    kept_getElem? sites hi his]
  rfl

/-- The tables after `remove`, row by row. -/
theorem remove_rows {D : LatticeData d K} {w : ℕ} (h : D.Rect w) (sites : List ℕ)
    (hs : ∀ s ∈ sites, s < D.numSites) :
    ∃ E, D.remove sites = .ok E ∧
      E.indices = gather D.indices (keptSites sites D.numSites) ∧
      E.positions = gather D.positions (keptSites sites D.numSites) ∧
      E.distvals = D.distvals ∧ E.invalidDistidx = D.invalidDistidx ∧ E.pmask = D.pmask ∧
      E.neighbors.length = newIndex sites D.numSites ∧
      ∀ i < D.numSites, i ∉ sites → ∃ r ∈ D.entries, D.entries[i]? = some r ∧
        E.neighbors[newIndex sites i]? = some (r.map fun e =>
          let b := decrement sites (if e.nbr ∈ sites then D.invalidIdx else e.nbr)
          if b = D.invalidIdx then newIndex sites D.numSites else b) ∧
        E.distances[newIndex sites i]? = some (r.map fun e =>
          if e.nbr ∈ sites then D.invalidDistidx else e.level) := by
  have hlen : (gather D.indices (keptSites sites D.numSites)).length =
      newIndex sites D.numSites :=
    gather_length _ _ (by intro k hk; simp [keptSites, numSites] at hk ⊢; omega)
  have hlen2 : (gather D.neighbors (keptSites sites D.numSites)).length =
      newIndex sites D.numSites :=
    gather_length _ _ (by
      intro k hk; rw [h.neighbors.1]; simp [keptSites, numSites] at hk ⊢; omega)
  unfold remove
  rw [deleteRows_ok D.indices sites rfl hs, deleteRows_ok D.positions sites h.positions hs,
    deleteRows_ok D.neighbors sites h.neighbors.1 hs,
    deleteRows_ok D.distances sites h.distances.1 hs]
  refine ⟨_, rfl, ?_⟩
  · refine ⟨rfl, rfl, rfl, rfl, rfl, by simpa using hlen2, ?_⟩
    intro i hi his
    obtain ⟨r, hr, hm⟩ := h.getElem?_entries hi
    refine ⟨r, hm, hr, ?_, ?_⟩
    · simp only [List.getElem?_map, gather_kept D.neighbors sites h.neighbors.1 hi his]
      rw [h.cols.nbr]
      have hlen' : (gather D.indices (keptSites sites D.indices.length)).length =
          newIndex sites D.numSites := hlen
      simp [hr, hlen', Function.comp_def]
    · simp only [List.getElem?_zipWith, gather_kept D.neighbors sites h.neighbors.1 hi his,
        gather_kept D.distances sites h.distances.1 hi his]
      rw [h.cols.nbr, h.cols.level]
      simp [hr, List.zipWith_map, List.zipWith_self]

/-- Which entries of a row are still valid after `remove`, and what they point to. -/
theorem remove_row_sel {D : LatticeData d K} (hv : D.Valid) (sites : List ℕ) (hnd : sites.Nodup)
    {r : List (Entry d)} (hm : r ∈ D.entries) (i : ℕ) (his : i ∉ sites) (distidx : Option ℕ)
    (hd : distidx ≠ some D.invalidDistidx) (unique : Bool) (q : Entry d → Bool) :
    ((r.filter fun e =>
      levelSel D.invalidDistidx distidx
        (if e.nbr ∈ sites then D.invalidDistidx else e.level) &&
      (!unique || decide (newIndex sites i <
        (let b := decrement sites (if e.nbr ∈ sites then D.invalidIdx else e.nbr)
         if b = D.invalidIdx then newIndex sites D.numSites else b))) && q e).map fun e =>
      let b := decrement sites (if e.nbr ∈ sites then D.invalidIdx else e.nbr)
      if b = D.invalidIdx then newIndex sites D.numSites else b) =
    ((((r.filter fun e =>
      levelSel D.invalidDistidx distidx e.level && (!unique || decide (i < e.nbr)) && q e).map
        Entry.nbr).filter fun n => decide (n ∉ sites)).map (newIndex sites)) := by
  rw [List.filter_map, List.map_map, List.filter_filter]
  have key : ∀ e ∈ r, e.nbr ∉ sites → e.level < D.invalidDistidx →
      (let b := decrement sites (if e.nbr ∈ sites then D.invalidIdx else e.nbr)
        if b = D.invalidIdx then newIndex sites D.numSites else b) = newIndex sites e.nbr ∧
      (newIndex sites i < newIndex sites e.nbr ↔ i < e.nbr) := by
    intro e he hns hlt
    have hn : e.nbr < D.numSites := by
      rcases hv.entry r hm e he with h1 | h1
      · exact h1.2
      · omega
    have hle := newIndex_le sites e.nbr
    constructor
    · simp only [if_neg hns, decrement_eq sites hnd e.nbr hns]
      rw [if_neg (by rw [hv.invalidIdx]; omega)]
    · constructor
      · intro hh
        by_contra hc
        rcases Nat.lt_or_ge e.nbr i with hc' | hc'
        · have := newIndex_lt sites hc' hns; omega
        · have : i = e.nbr := by omega
          subst this; omega
      · intro hh; exact newIndex_lt sites hh his
  have hfilter : ∀ e ∈ r,
      (levelSel D.invalidDistidx distidx
        (if e.nbr ∈ sites then D.invalidDistidx else e.level) &&
      (!unique || decide (newIndex sites i <
        (let b := decrement sites (if e.nbr ∈ sites then D.invalidIdx else e.nbr)
         if b = D.invalidIdx then newIndex sites D.numSites else b))) && q e) =
      (decide (e.nbr ∉ sites) && (levelSel D.invalidDistidx distidx e.level && (!unique || decide (i < e.nbr)) && q e)) := by
    intro e he
    by_cases hns : e.nbr ∈ sites
    · rcases distidx with _ | l
      · simp [hns]
      · have : D.invalidDistidx ≠ l := fun hh => hd (by rw [hh])
        simp [hns, this]
    · by_cases hlt : e.level < D.invalidDistidx
      · obtain ⟨k1, k2⟩ := key e he hns hlt
        rw [k1]
        simp only [k2, hns, not_false_eq_true, decide_true, Bool.true_and, if_false]
      · have he2 : e.level = D.invalidDistidx := by
          rcases hv.entry r hm e he with h1 | h1 <;> omega
        rcases distidx with _ | l
        · simp [hns, he2]
        · have : D.invalidDistidx ≠ l := fun hh => hd (by rw [hh])
          simp [hns, he2, this]
  rw [List.filter_congr hfilter]
  apply List.map_congr_left
  intro e he
  obtain ⟨he1, he2⟩ := List.mem_filter.1 he
  simp only [Bool.and_eq_true, decide_eq_true_eq] at he2
  have hlt : e.level < D.invalidDistidx := by
    rcases hv.entry r hm e he1 with h1 | h1
    · exact h1.1
    · exfalso
      rcases distidx with _ | l
      · simp [h1.1] at he2
      · have : D.invalidDistidx ≠ l := fun hh => hd (by rw [hh])
        simp [h1.1, this] at he2
  exact (key e he1 he2.1 hlt).1

/-- C48 (restricted to lists of different, existing, non-negative site numbers): after
`remove(sites)` the remaining sites are, in the old order, exactly those not listed; each keeps
its indices and position, and its neighbours (all, or those at any level, also with `unique`) are
the old ones that were not removed, renumbered. -/
theorem C48_remove_induced_partial {D : LatticeData d K} {w : ℕ} (h : D.Rect w) (hv : D.Valid)
    (sites : List ℕ) (hnd : sites.Nodup) (hs : ∀ s ∈ sites, s < D.numSites) :
    ∃ E, D.remove sites = .ok E ∧ E.numSites + sites.length = D.numSites ∧
      E.distvals = D.distvals ∧
      (∀ k < E.numSites, ∃ i < D.numSites, i ∉ sites ∧ newIndex sites i = k) ∧
      (∀ i j, i < j → i ∉ sites → newIndex sites i < newIndex sites j) ∧
      ∀ i < D.numSites, i ∉ sites →
        E.indices[newIndex sites i]? = D.indices[i]? ∧
        E.positions[newIndex sites i]? = D.positions[i]? ∧
        ∀ distidx unique, distidx ≠ some D.invalidDistidx →
          ∃ l, D.getNeighbors i distidx none unique = .ok l ∧
            E.getNeighbors (newIndex sites i) distidx none unique =
              .ok ((l.filter fun n => decide (n ∉ sites)).map (newIndex sites)) := by
  obtain ⟨E, hE, e1, e2, e3, e4, e5, e6, e7⟩ := remove_rows h sites hs
  have hnum : E.numSites = newIndex sites D.numSites := by
    unfold numSites
    rw [e1]
    exact gather_length _ _ (by intro k hk; simp [keptSites, numSites] at hk ⊢; omega)
  have hcount : newIndex sites D.numSites + sites.length = D.numSites := by
    have := newIndex_add sites hnd D.numSites
    rwa [List.filter_eq_self.2 (by simpa using hs)] at this
  refine ⟨E, hE, by omega, e3, fun k hk => newIndex_kept sites (by omega),
    fun i j hij hi => newIndex_lt sites hij hi, ?_⟩
  intro i hi his
  refine ⟨by rw [e1]; exact gather_kept _ sites rfl hi his,
    by rw [e2]; exact gather_kept _ sites h.positions hi his, ?_⟩
  intro distidx unique hd
  obtain ⟨r, hm, hr, hn', hd'⟩ := e7 i hi his
  have hle := newIndex_le sites i
  refine ⟨_, h.cols.getNeighbors i r hr distidx none unique, ?_⟩
  rw [getNeighbors_of_row r _ _ hn' hd' (by rw [e5, h.pmask.1]; omega) distidx unique, e4]
  have := remove_row_sel hv sites hnd hm i his distidx hd unique fun _ => true
  simp only [Bool.and_true] at this
  rw [this]
  congr 4
  apply List.filter_congr
  intro e _
  simp [sel]

/-- C48, the tables after `remove` (same restriction): one row per remaining site, and every entry
is a link to an existing site or padding with the new invalid index, which is the new number of
sites. -/
theorem C48_remove_tables_partial {D : LatticeData d K} {w : ℕ} (h : D.Rect w) (hv : D.Valid)
    (sites : List ℕ) (hnd : sites.Nodup) (hs : ∀ s ∈ sites, s < D.numSites) :
    ∃ E, D.remove sites = .ok E ∧ E.invalidIdx = E.numSites ∧
      E.invalidDistidx = D.invalidDistidx ∧ E.neighbors.length = E.numSites ∧
      ∀ i < E.numSites, ∃ t : List (ℕ × ℕ), E.neighbors[i]? = some (t.map Prod.fst) ∧
        E.distances[i]? = some (t.map Prod.snd) ∧ t.length = w ∧ ∀ e ∈ t,
          (e.2 < E.invalidDistidx ∧ e.1 < E.numSites) ∨
          (e.2 = E.invalidDistidx ∧ e.1 = E.numSites) := by
  obtain ⟨E, hE, e1, e2, e3, e4, e5, e6, e7⟩ := remove_rows h sites hs
  have hnum : E.numSites = newIndex sites D.numSites := by
    unfold numSites
    rw [e1]
    exact gather_length _ _ (by intro k hk; simp [keptSites, numSites] at hk ⊢; omega)
  have hinv : E.invalidIdx = E.numSites := by
    unfold remove at hE
    rw [deleteRows_ok D.indices sites rfl hs, deleteRows_ok D.positions sites h.positions hs,
      deleteRows_ok D.neighbors sites h.neighbors.1 hs,
      deleteRows_ok D.distances sites h.distances.1 hs] at hE
    rw [← Except.ok.inj hE]
    rfl
  refine ⟨E, hE, hinv, e4, by rw [hnum, e6], ?_⟩
  intro k hk
  obtain ⟨i, hi, his, rfl⟩ := newIndex_kept sites (by rw [← hnum]; exact hk)
  obtain ⟨r, hm, hr, hn', hd'⟩ := e7 i hi his
  refine ⟨r.map fun e => (let b := decrement sites (if e.nbr ∈ sites then D.invalidIdx else e.nbr)
    if b = D.invalidIdx then newIndex sites D.numSites else b,
    if e.nbr ∈ sites then D.invalidDistidx else e.level), ?_, ?_, ?_, ?_⟩
  · rw [hn', List.map_map]; rfl
  · rw [hd', List.map_map]; rfl
  · rw [List.length_map]
    have : D.neighbors[i]? = some (r.map Entry.nbr) := by
      rw [h.cols.nbr, List.getElem?_map, hr]
      rfl
    rw [← List.length_map (f := Entry.nbr)]
    exact h.neighbors.2 _ (List.mem_of_getElem? this)
  · intro e he
    obtain ⟨x, hx, rfl⟩ := List.mem_map.1 he
    have hpad : D.invalidIdx ∉ sites := fun hh => by
      have := hs _ hh
      rw [hv.invalidIdx] at this
      omega
    dsimp only
    by_cases hns : x.nbr ∈ sites
    · right
      rw [if_pos hns, if_pos hns, decrement_eq sites hnd _ hpad, hv.invalidIdx, ← hnum, e4]
      exact ⟨rfl, ite_self _⟩
    · rw [if_neg hns, if_neg hns, decrement_eq sites hnd _ hns, e4, hnum, hv.invalidIdx]
      have hle := newIndex_le sites x.nbr
      rcases hv.entry r hm x hx with h1 | h1
      · left
        rw [if_neg (by omega)]
        exact ⟨h1.1, newIndex_lt sites h1.2 hns⟩
      · right
        rw [h1.2.1]
        exact ⟨h1.1, ite_self _⟩

example : ([0] : List ℕ).Nodup ∧ (∀ s ∈ [0], s < ring3.numSites) := by decide
example : ∃ E, ring3.remove [0] = .ok E ∧ E.getNeighbors 0 none none false = .ok [1] ∧
    E.getNeighbors 1 none none false = .ok [0] :=
  ⟨_, rfl, by decide +kernel, by decide +kernel⟩

/-- C48: a site number that is out of range raises `IndexError`. -/
theorem C48_remove_out_of_range {D : LatticeData d K} {w : ℕ} (_h : D.Rect w) (sites : List ℕ)
    {s : ℕ} (hs : s ∈ sites) (hN : D.numSites ≤ s) : D.remove sites = .error .index := by
  have : deleteRows D.indices sites = .error .index := by
    unfold deleteRows
    rw [if_neg]
    simp only [List.all_eq_true, decide_eq_true_eq, not_forall]
    exact ⟨s, hs, by simpa [numSites] using hN⟩
  unfold remove
  rw [this]

example : 5 ∈ [0, 5] ∧ ring3.numSites ≤ 5 := by decide

/-- A chain of four sites. -/
def chain4 : LatticeData 1 ℚ where
  indices := [![0, 0], ![1, 0], ![2, 0], ![3, 0]]
  positions := [![0], ![1], ![2], ![3]]
  neighbors := [[1, 4], [0, 2], [1, 3], [2, 4]]
  distances := [[0, 1], [0, 0], [0, 0], [0, 1]]
  distvals := [1, ⊤]
  pnvecs := [[0, 0], [0, 0], [0, 0], [0, 0]]
  pmask := [[false, false], [false, false], [false, false], [false, false]]
  paxes := [[[0], [0]], [[0], [0]], [[0], [0]], [[0], [0]]]
  invalidIdx := 4
  invalidDistidx := 1
  dmap := none

/-- C48 fails for a repeated site number, which the deletion accepts: one site is removed but
the numbers are lowered twice, so that old site 3 (new 2) becomes a neighbour of new site 0
instead of new site 1 (old 2). -/
theorem C48_remove_repeated_fails :
    ∃ E F, chain4.remove [1, 1] = .ok E ∧ chain4.remove [1] = .ok F ∧
      E.positions = F.positions ∧
      E.getNeighbors 2 none none false = .ok [0] ∧ F.getNeighbors 2 none none false = .ok [1] :=
  ⟨_, _, rfl, rfl, by decide +kernel, by decide +kernel, by decide +kernel⟩

/-! ## C49 remove and periodic data -/

/-- C49 (restricted to removals that do not move any row of the periodic flags, e.g. of sites
without periodic lattice or of the last sites): the periodic and the regular neighbours of the
remaining sites are the old ones that were not removed, renumbered. -/
theorem C49_remove_periodic_flags_partial {D : LatticeData d K} {w : ℕ} (h : D.Rect w)
    (hv : D.Valid) (sites : List ℕ) (hnd : sites.Nodup) (hs : ∀ s ∈ sites, s < D.numSites)
    (hflags : ∀ i < D.numSites, i ∉ sites → D.pmask[newIndex sites i]? = D.pmask[i]?) :
    ∃ E, D.remove sites = .ok E ∧ ∀ i < D.numSites, i ∉ sites → ∀ b unique,
      ∃ l, D.getNeighbors i none (some b) unique = .ok l ∧
        E.getNeighbors (newIndex sites i) none (some b) unique =
          .ok ((l.filter fun n => decide (n ∉ sites)).map (newIndex sites)) := by
  obtain ⟨E, hE, e1, e2, e3, e4, e5, e6, e7⟩ := remove_rows h sites hs
  refine ⟨E, hE, ?_⟩
  intro i hi his b unique
  obtain ⟨r, hm, hr, hn', hd'⟩ := e7 i hi his
  have hp' : E.pmask[newIndex sites i]? = some (r.map Entry.per) := by
    rw [e5, hflags i hi his, h.cols.per]; simp [hr]
  refine ⟨_, h.cols.getNeighbors i r hr none (some b) unique, ?_⟩
  rw [getNeighbors_of_row_per r _ _ _ hn' hd' hp' none b unique, e4]
  have := remove_row_sel hv sites hnd hm i his none (by simp) unique fun e => e.per == b
  simp only at this
  rw [this]
  rfl

example : ∀ i < ring3.numSites, i ∉ [2] → ring3.pmask[newIndex [2] i]? = ring3.pmask[i]? := by
  decide

/-- A ring of four sites (`3-0` periodic). -/
def ring4 : LatticeData 1 ℚ where
  indices := [![0, 0], ![1, 0], ![2, 0], ![3, 0]]
  positions := [![0], ![1], ![2], ![3]]
  neighbors := [[1, 3], [0, 2], [1, 3], [2, 0]]
  distances := [[0, 0], [0, 0], [0, 0], [0, 0]]
  distvals := [1, ⊤]
  pnvecs := [[0, ![-1]], [0, 0], [0, 0], [0, ![1]]]
  pmask := [[false, true], [false, false], [false, false], [false, true]]
  paxes := [[[1], [0]], [[1], [1]], [[1], [1]], [[1], [0]]]
  invalidIdx := 4
  invalidDistidx := 1
  dmap := none

/-- C49 fails: after removing site 1 of a ring of four the flags are those of other sites; the
periodic link of the last site is reported as a regular one. -/
theorem C49_remove_flags_fails :
    ring4.getNeighbors 3 none (some true) false = .ok [0] ∧
    ∃ E, ring4.remove [1] = .ok E ∧ E.getNeighbors 2 none none false = .ok [1, 0] ∧
        E.getNeighbors 2 none (some true) false = .ok [] ∧
        E.getNeighbors 2 none (some false) false = .ok [1, 0] :=
  ⟨by decide +kernel, _, rfl, by decide +kernel, by decide +kernel, by decide +kernel⟩

/-- C49 fails: after removing any sites from any lattice, the periodic boundary conditions can
neither be removed nor set: both raise `IndexError`. -/
theorem C49_change_after_remove_fails [LinearOrder K] {D : LatticeData d K} {w : ℕ} (h : D.Rect w)
    (sites : List ℕ) (hne : sites ≠ []) (hnd : sites.Nodup)
    (hs : ∀ s ∈ sites, s < D.numSites) :
    ∃ E, D.remove sites = .ok E ∧ E.removePeriodic = .error .index ∧
      ∀ items, E.setPeriodic items = .error .index := by
  obtain ⟨E, hE, e1, e2, e3, e4, e5, e6, e7⟩ := remove_rows h sites hs
  have hcount : newIndex sites D.numSites + sites.length = D.numSites := by
    have := newIndex_add sites hnd D.numSites
    rwa [List.filter_eq_self.2 (by simpa using hs)] at this
  have hpos : 0 < sites.length := List.length_pos_iff.2 hne
  have herr : E.removePeriodic = .error .index := by
    unfold removePeriodic
    rw [if_neg (by rw [e5, e6, h.pmask.1]; omega)]
  refine ⟨E, hE, herr, fun items => ?_⟩
  unfold setPeriodic
  rw [herr]

end Lattpy

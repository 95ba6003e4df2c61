import Verif.Props.AppendChain

/-!
# C96: the number of distances
-/

set_option autoImplicit false
set_option linter.unusedSectionVars false

namespace Lattpy
variable {d : ℕ}

/-- The different finite distances of a table. -/
noncomputable def finiteDistances (table : List (List (WithTop ℝ))) : Finset ℝ :=
  table.flatten.toFinset.preimage ((↑) : ℝ → WithTop ℝ) WithTop.coe_injective.injOn

theorem mem_finiteDistances {table : List (List (WithTop ℝ))} {x : ℝ} :
    x ∈ finiteDistances table ↔ (x : WithTop ℝ) ∈ table.flatten := by
  simp [finiteDistances]

theorem numDistances_eq {table : List (List (WithTop ℝ))} :
    table.flatten.toFinset.card =
      (finiteDistances table).card + if ⊤ ∈ table.flatten then 1 else 0 := by
  have hc : ((finiteDistances table).map ⟨((↑) : ℝ → WithTop ℝ), WithTop.coe_injective⟩).card =
      (finiteDistances table).card := Finset.card_map _
  have hm : ∀ y : WithTop ℝ, y ∈ (finiteDistances table).map
      ⟨((↑) : ℝ → WithTop ℝ), WithTop.coe_injective⟩ ↔ y ∈ table.flatten ∧ y ≠ ⊤ := by
    intro y
    rw [Finset.mem_map]
    constructor
    · rintro ⟨x, hx, rfl⟩
      exact ⟨mem_finiteDistances.1 hx, WithTop.coe_ne_top⟩
    · rintro ⟨h1, h2⟩
      obtain ⟨x, rfl⟩ := WithTop.ne_top_iff_exists.1 h2
      exact ⟨x, mem_finiteDistances.2 h1, rfl⟩
  rw [← hc]
  split_ifs with h
  · have : table.flatten.toFinset = insert ⊤ ((finiteDistances table).map
        ⟨((↑) : ℝ → WithTop ℝ), WithTop.coe_injective⟩) := by
      ext y
      rw [List.mem_toFinset, Finset.mem_insert, hm]
      by_cases hy : y = ⊤
      · simp [hy, h]
      · simp [hy]
    rw [this, Finset.card_insert_of_notMem]
    rw [hm]
    simp
  · have : table.flatten.toFinset = (finiteDistances table).map
        ⟨((↑) : ℝ → WithTop ℝ), WithTop.coe_injective⟩ := by
      ext y
      rw [List.mem_toFinset, hm]
      constructor
      · intro hy
        exact ⟨hy, fun h' => h (h' ▸ hy)⟩
      · exact fun hy => hy.1
    rw [this, Nat.add_zero]

/-- C96: for data with at most 256 different entries in its distance table `num_distances` is the
number of different neighbour distances if the table has no padding, and one more otherwise. -/
theorem C96_num_distances_partial {indices : List (Idx d)} {positions : List (Vec d ℝ)}
    {neighbors : List (List ℕ)} {distances : List (List (WithTop ℝ))} {D : LatticeData d ℝ}
    (h : LatticeData.set indices positions neighbors distances = .ok D)
    (h256 : distances.flatten.toFinset.card ≤ 256) :
    D.numDistances =
      (finiteDistances distances).card + if ⊤ ∈ distances.flatten then 1 else 0 := by
  rw [← numDistances_eq]
  rw [List.card_toFinset] at h256 ⊢
  obtain ⟨-, -, h3, h4⟩ := C19_lookup_table_lossless_partial distances.flatten 8 h256
  have hD : D.distances = splitLike distances (createLookupTable distances.flatten 8).2 := by
    unfold LatticeData.set at h
    dsimp only at h
    split at h
    · cases h
    · cases h
      rfl
  have hf : D.distances.flatten = (createLookupTable distances.flatten 8).2 := by
    rw [hD, lookup_eq_map, splitLike_map, ← List.map_flatten]
  unfold LatticeData.numDistances
  rw [hf]
  have h5 : (npUnique (createLookupTable distances.flatten 8).2).length =
      (createLookupTable distances.flatten 8).2.toFinset.card := by
    rw [List.card_toFinset]
    simp [npUnique]
  rw [h5, ← List.card_toFinset]
  have h6 : (createLookupTable distances.flatten 8).2.toFinset.image
      (fun k => (createLookupTable distances.flatten 8).1[k]?) =
      distances.flatten.toFinset.image some := by
    ext y
    have : y ∈ (createLookupTable distances.flatten 8).2.map
        (fun k => (createLookupTable distances.flatten 8).1[k]?) ↔
        y ∈ distances.flatten.map some := by rw [h4]
    simpa only [Finset.mem_image, List.mem_toFinset, List.mem_map] using this
  rw [← Finset.card_image_of_injective _ (Option.some_injective (WithTop ℝ)), ← h6,
    Finset.card_image_of_injOn]
  intro k hk k' hk' he
  have hs : ∀ k ∈ (createLookupTable distances.flatten 8).2,
      ∃ x, (createLookupTable distances.flatten 8).1[k]? = some x := by
    intro k hk
    have : (createLookupTable distances.flatten 8).1[k]? ∈
        distances.flatten.map some := by
      rw [← h4]
      exact List.mem_map_of_mem hk
    obtain ⟨x, -, hx⟩ := List.mem_map.1 this
    exact ⟨x, hx.symm⟩
  obtain ⟨x, hx⟩ := hs k (by simpa using hk)
  have hx' : (createLookupTable distances.flatten 8).1[k']? = some x := by
    dsimp only at he
    rw [← he, hx]
  obtain ⟨hp, -⟩ := C19_lookup_table_lossless_partial distances.flatten 8 h256
  have hnd : (createLookupTable distances.flatten 8).1.Nodup := hp.imp fun h => ne_of_lt h
  obtain ⟨i1, i2⟩ := List.getElem?_eq_some_iff.1 hx
  obtain ⟨j1, j2⟩ := List.getElem?_eq_some_iff.1 hx'
  exact (hnd.getElem_inj_iff).1 (i2.trans j2.symm)

/-- Two sites at distance 1 and 2 from a third one. -/
example : ([[some 1, some 2], [some 1, ⊤], [some 2, ⊤]] :
    List (List (WithTop ℝ))).flatten.toFinset.card ≤ 256 :=
  (List.toFinset_card_le _).trans (by change 6 ≤ 256; norm_num)

/-- C96 fails for a built chain of four sites: it has one distance between neighbours and `num_distances` is
two, because the number that marks missing neighbours is counted. -/
theorem C96_padding_fails (env : Env ℝ) :
    ∃ (w : World 1 ℝ) (L : Lattice 1 ℝ) (D : LatticeData 1 ℝ), Reachable env w ∧
      L.world = w ∧ L.data = some D ∧ D.numSites = 4 ∧
      finiteDistances D.distTable = {1} ∧ D.numDistances = 2 := by
  obtain ⟨w, A, L, D, table, h⟩ := exists_isBuiltChain env Nat.one_pos (by norm_num) 3
    (fun _ => true) (by decide)
  have htab := (set_tables h.set h.top h.levels).2
  have hmem : ∀ x, x ∈ D.distTable.flatten ↔ x ∈ D.distvals := by
    intro x
    rw [Lattpy.mem_distvals h.set, htab]
    simp only [List.mem_flatten, List.mem_map]
    constructor
    · rintro ⟨l, ⟨row, hrow, rfl⟩, hx⟩
      obtain ⟨e, he, rfl⟩ := List.mem_map.1 hx
      exact ⟨row, hrow, e, he, rfl⟩
    · rintro ⟨row, hrow, e, he, rfl⟩
      exact ⟨_, ⟨row, hrow, rfl⟩, List.mem_map_of_mem he⟩
  have hcells : chainCells 3 (fun _ => true) = [0, 1, 2, 3] := by decide
  have hfin : finiteDistances D.distTable = {1} := by
    ext x
    rw [mem_finiteDistances, hmem, h.mem_distvals, Finset.mem_singleton, hcells]
    constructor
    · rintro ⟨a, -, b, -, h1, h2, rfl⟩
      have : b = a + 1 := by omega
      rw [this]
      push_cast
      ring
    · rintro rfl
      exact ⟨0, by simp, 1, by simp, by norm_num, by norm_num, by norm_num⟩
  refine ⟨w, L, D, h.reach, h.world, h.data, ?_, hfin, ?_⟩
  · unfold LatticeData.numSites
    rw [h.indices, hcells]
    rfl
  · have hcard := numDistances_eq (table := D.distTable)
    rw [hfin, if_pos ((hmem ⊤).2 h.top)] at hcard
    have h1 := C96_num_distances_partial h.set (by
      rw [← htab, hcard]
      norm_num)
    rw [← htab, hfin, if_pos ((hmem ⊤).2 h.top)] at h1
    exact h1

end Lattpy

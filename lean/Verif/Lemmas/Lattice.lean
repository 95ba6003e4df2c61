import Verif.Model.Lattice
import Verif.Lemmas.Neighbors
import Verif.Props.Build
import Verif.Props.Data

/-! What a successful `Lattice.build` stores. -/

set_option autoImplicit false
set_option linter.unusedSectionVars false

namespace Lattpy

open Structure World

variable {d : ℕ}

theorem maskRow_map_left {α β : Type*} (f : α → β) : ∀ (l : List α) (m : List Bool),
    maskRow (l.map f) m = (maskRow l m).map f
  | [], _ => by simp [maskRow]
  | a :: l, [] => by simp [maskRow]
  | a :: l, true :: m => by
      have := maskRow_map_left f l m
      simp only [maskRow] at this ⊢
      simp [this]
  | a :: l, false :: m => by
      have := maskRow_map_left f l m
      simp only [maskRow] at this ⊢
      simp [this]

theorem maskRow_sublist {α : Type*} (l : List α) (m : List Bool) : (maskRow l m).Sublist l :=
  masked_sublist l m

/-- The sites returned by `build_indices` (with any callback). -/
theorem buildIndices_sites (hd : 0 < d) {env : Env ℝ} {w : World d ℝ} (h : Reachable env w)
    {shape : ShapeArg d ℝ} {primitive : Bool} {pos : Option (Vec d ℝ)} {check : Bool}
    {callback : Option (List (Idx d) → List (Vec d ℝ) → List Bool)}
    {bits : Option ℕ} {r : List (Idx d) × List (Vec d ℝ)}
    (hr : w.struct.buildIndices shape primitive pos check callback bits = .ok r) :
    List.Forall₂ (IsSitePos w.struct) r.1 r.2 ∧ (bits = none → r.1.Nodup) := by
  cases callback with
  | none => exact C41_sites hd h hr
  | some f =>
  have hG := h.good hd
  have h0 := numBase_pos hG.positions_length hr
  obtain ⟨nvecs, L, hnv, hL, -, hrr⟩ := buildIndices_ok hG.positions_length h0 hr
  dsimp only at hrr
  unfold applyMask at hrr
  split_ifs at hrr
  cases hrr
  dsimp only
  rw [maskRow_map_left]
  constructor
  · rw [List.forall₂_map_right_iff, List.forall₂_same]
    intro idx hidx
    have hidx := (maskRow_sublist _ _).subset hidx
    rw [hL] at hidx
    exact (isSitePos_iff hG.positions_length _ _).2
      ⟨(mem_siteList.1 (List.mem_filter.1 hidx).1).2, rfl⟩
  · rintro rfl
    rw [buildTranslationVectors_eq _ hd] at hnv
    cases hreg : w.struct.buildRegion shape primitive pos with
    | error e => rw [hreg] at hnv; cases hnv
    | ok rs =>
      rw [hreg] at hnv
      have := vindices_nodup_default _ _ hnv
      rw [hL]
      exact ((siteList_nodup this).filter _).sublist (maskRow_sublist _ _)

/-- `LatticeData.set` succeeds for tables with at least one slot. -/
theorem set_cases {K : Type*} [LinearOrder K] (indices : List (Fin (d + 1) → ℤ))
    (positions : List (Vec d K)) (neighbors : List (List ℕ)) (distances : List (List (WithTop K))) :
    (distances.flatten = [] ∧
      LatticeData.set indices positions neighbors distances = .error .value) ∨
    (distances.flatten ≠ [] ∧ ∃ D, LatticeData.set indices positions neighbors distances = .ok D ∧
      D.indices = indices ∧ D.positions = positions ∧ D.neighbors = neighbors ∧
      D.distvals = npUnique distances.flatten ∧ D.dmap = none ∧
      D.pmask = neighbors.map fun r => r.map fun _ => false) := by
  have hl := lookup_length distances.flatten 8
  have hv := lookup_values distances.flatten 8
  cases hf : distances.flatten with
  | nil =>
    left
    refine ⟨rfl, ?_⟩
    unfold LatticeData.set
    cases ht : (createLookupTable distances.flatten 8).2 with
    | nil => dsimp only; rw [ht]
    | cons x xs =>
      rw [ht, hf] at hl
      simp at hl
  | cons y ys =>
    right
    refine ⟨by simp, ?_⟩
    unfold LatticeData.set
    cases ht : (createLookupTable distances.flatten 8).2 with
    | nil =>
      rw [ht, hf] at hl
      simp at hl
    | cons x xs =>
      rw [← hf]
      dsimp only
      rw [ht]
      exact ⟨_, rfl, rfl, rfl, rfl, hv, rfl, rfl⟩

theorem mem_masked {α : Type*} {s : List α} {M : List Bool} {a : α}
    (h : a ∈ ((s.zip M).filter fun q => q.2).map fun q => q.1) :
    ∃ c : ℕ, s[c]? = some a ∧ M[c]? = some true := by
  obtain ⟨⟨a', b⟩, hq, rfl⟩ := List.mem_map.1 h
  obtain ⟨h1, h2⟩ := List.mem_filter.1 hq
  dsimp only at h2
  subst h2
  obtain ⟨c, hc⟩ := List.mem_iff_getElem?.1 h1
  rw [List.getElem?_zip_eq_some] at hc
  exact ⟨c, hc⟩

/-- The columns of the table of `_filter_neighbors`: either no entry is infinite before the last
step, and a column of infinite entries is appended; or every column has a finite entry, and then
(unless there are no columns) some row has only finite entries. -/
theorem filterNeighbors_width (env : Env ℝ) (dm : List (List (List ℝ))) (indices : List (Idx d))
    (table : List (List (ℕ × WithTop ℝ))) :
    ((∀ (i : ℕ) (row : List (ℕ × WithTop ℝ)) (x : Idx d), table[i]? = some row →
        indices[i]? = some x → ∀ e ∈ filterRow dm indices x.alpha row, e.2 ≠ ⊤) ∧
      ∀ row ∈ filterNeighbors env dm indices table indices, (indices.length, ⊤) ∈ row) ∨
    ((∃ (i : ℕ) (row : List (ℕ × WithTop ℝ)) (x : Idx d), table[i]? = some row ∧
        indices[i]? = some x ∧ ∃ e ∈ filterRow dm indices x.alpha row, e.2 = ⊤) ∧
      ((∃ row ∈ filterNeighbors env dm indices table indices, row ≠ []) →
        ∃ row ∈ filterNeighbors env dm indices table indices, ∀ e ∈ row, e.2 ≠ ⊤)) := by
  set F := List.zipWith (fun row (x : Idx d) => Structure.filterRow dm indices x.alpha row) table
    indices with hF
  set sorted := F.map fun row => gather row (env.argsort (row.map Prod.snd)) with hsorted
  by_cases hall : (sorted.all fun row => row.all fun p => decide (p.2 ≠ ⊤)) = true
  · left
    have hout : Structure.filterNeighbors env dm indices table indices =
        sorted.map fun row => row ++ [(indices.length, ⊤)] := by
      unfold Structure.filterNeighbors
      rw [if_pos hall]
    refine ⟨?_, ?_⟩
    · intro i row x h1 h2 e he
      rw [List.all_eq_true] at hall
      have hm : filterRow dm indices x.alpha row ∈ F :=
        List.mem_of_getElem? (i := i) (by simp [hF, List.getElem?_zipWith, h1, h2])
      have h3 := hall _ (List.mem_map_of_mem (f := fun row => gather row
        (env.argsort (row.map Prod.snd))) hm)
      rw [List.all_eq_true] at h3
      simpa using h3 e ((getElem?_gather_sorted env _).1.mem_iff.2 he)
    · intro row hrow
      rw [hout] at hrow
      obtain ⟨r, -, rfl⟩ := List.mem_map.1 hrow
      simp
  · right
    have hout : Structure.filterNeighbors env dm indices table indices =
        maskCols (anyFiniteCols (Structure.tableWidth sorted)
          (sorted.map fun r => r.map Prod.snd)) sorted := by
      unfold Structure.filterNeighbors
      rw [if_neg hall]
    set w0 := Structure.tableWidth sorted with hw0
    set M := anyFiniteCols w0 (sorted.map fun r => r.map Prod.snd) with hM
    have hMget : ∀ c : ℕ, M[c]? = some true → ∃ s ∈ sorted, ∃ e : ℕ × WithTop ℝ,
        s[c]? = some e ∧ e.2 ≠ ⊤ := by
      intro c hc
      rw [hM, anyFiniteCols, List.getElem?_map] at hc
      obtain ⟨c', hc1, hc2⟩ := Option.map_eq_some_iff.1 hc
      have hc' : c' = c := by
        obtain ⟨_, h⟩ := List.getElem?_eq_some_iff.1 hc1
        simpa using h.symm
      subst hc'
      rw [List.any_eq_true] at hc2
      obtain ⟨r, hr, hr2⟩ := hc2
      obtain ⟨s, hs, rfl⟩ := List.mem_map.1 hr
      rw [List.getElem?_map] at hr2
      cases he : s[c']? with
      | none => simp [he] at hr2
      | some e => exact ⟨s, hs, e, he, by simpa [he] using hr2⟩
    constructor
    · rw [Bool.not_eq_true, List.all_eq_false] at hall
      obtain ⟨s, hs, hs2⟩ := hall
      rw [List.all_eq_true] at hs2
      push Not at hs2
      obtain ⟨e, he, he2⟩ := hs2
      obtain ⟨f, hf, rfl⟩ := List.mem_map.1 hs
      obtain ⟨i, hi⟩ := List.mem_iff_getElem?.1 hf
      rw [hF, List.getElem?_zipWith] at hi
      cases h1 : table[i]? with
      | none => simp [h1] at hi
      | some row =>
        cases h2 : indices[i]? with
        | none => simp [h1, h2] at hi
        | some x =>
          rw [h1, h2] at hi
          simp only [Option.some.injEq] at hi
          subst hi
          exact ⟨i, row, x, h1, h2, e, (getElem?_gather_sorted env _).1.mem_iff.1 he,
            by simpa using he2⟩
    · rintro ⟨row, hrow, hne⟩
      rw [hout] at hrow ⊢
      obtain ⟨s0, hs0, rfl⟩ := List.mem_map.1 hrow
      -- the last column
      obtain ⟨e0, he0⟩ := List.exists_mem_of_ne_nil _ hne
      obtain ⟨c0, -, hc0⟩ := mem_masked he0
      classical
      obtain ⟨c, hc, hcmax⟩ : ∃ c : ℕ, M[c]? = some true ∧
          ∀ c' : ℕ, M[c']? = some true → c' ≤ c := by
        have hfin : ∃ c ∈ (Finset.range M.length).filter fun c => M[c]? = some true,
            ∀ c' ∈ (Finset.range M.length).filter fun c => M[c]? = some true, c' ≤ c :=
          Finset.exists_max_image _ id ⟨c0, by
            simp only [Finset.mem_filter, Finset.mem_range]
            exact ⟨(List.getElem?_eq_some_iff.1 hc0).1, hc0⟩⟩
        obtain ⟨c, hc, hmax⟩ := hfin
        refine ⟨c, (Finset.mem_filter.1 hc).2, fun c' h => hmax c' ?_⟩
        simp only [Finset.mem_filter, Finset.mem_range]
        exact ⟨(List.getElem?_eq_some_iff.1 h).1, h⟩
      obtain ⟨s, hs, e, he, hfin⟩ := hMget c hc
      refine ⟨_, List.mem_map_of_mem hs, ?_⟩
      intro e' he'
      obtain ⟨c', h1, h2⟩ := mem_masked he'
      have hle := hcmax c' h2
      obtain ⟨f, hf, rfl⟩ := List.mem_map.1 hs
      have hp := (getElem?_gather_sorted env f).2
      rcases Nat.lt_or_eq_of_le hle with hlt | rfl
      · obtain ⟨hb1, hb2⟩ := List.getElem?_eq_some_iff.1 h1
        obtain ⟨hb3, hb4⟩ := List.getElem?_eq_some_iff.1 he
        rw [List.pairwise_iff_getElem] at hp
        have := hp c' c (by simpa using hb1) (by simpa using hb3) hlt
        simp only [List.getElem_map, hb2, hb4] at this
        exact ne_top_of_le_ne_top hfin this
      · rw [h1] at he
        cases he
        exact hfin

/-- The rows and columns of the table of `compute_neighbors`: `sel i` are the candidates found by the
tree query for site `i`.  If all candidates are connected, some entry is infinite; otherwise there
are no columns, or some row is full. -/
theorem computeNeighbors_width (env : Env ℝ) {S : Structure d ℝ} {cells m c A}
    (hA : IsAnalysis S cells m c A) (hSA : S.analysis = some A) {k : ℕ} {maxDist : ℝ}
    (hq : Structure.queryParams A = .ok (k, maxDist)) (indices : List (Idx d))
    (positions : List (Vec d ℝ)) (hlen : indices.length = positions.length)
    (hnd : positions.Nodup) :
    ∃ (table : List (List (ℕ × WithTop ℝ))) (sel : ℕ → List ℕ) (width : ℕ),
      computeNeighbors env S indices positions = .ok table ∧ table.length = positions.length ∧
      (∀ (i : ℕ) (p : Vec d ℝ) (x : Idx d),
        positions[i]? = some p → indices[i]? = some x → ∃ (row : List (ℕ × WithTop ℝ)),
          table[i]? = some row ∧ row.length = width ∧ (row.map Prod.snd).Pairwise (· ≤ ·) ∧
          (row.filter isLink).Perm (((sel i).filter fun j => connectedAt A.distMatrix x.alpha
            (alphaOf indices j) (distance (positions.getD j 0) p (some 6) : ℝ)).map
              fun j => (j, ((distance (positions.getD j 0) p (some 6) : ℝ) : WithTop ℝ))) ∧
          (∀ j ∈ sel i, j ≠ i ∧ j < positions.length ∧
            distance (positions.getD j 0) p ≤ maxDist) ∧
          (∀ j < positions.length, j ≠ i → distance (positions.getD j 0) p < maxDist →
            ((List.range positions.length).filter fun a => decide
              (distance (positions.getD a 0) p ≤ distance (positions.getD j 0) p)).length ≤ k →
            j ∈ sel i)) ∧
      (0 < positions.length →
        (∀ (i : ℕ) (p : Vec d ℝ) (x : Idx d), positions[i]? = some p → indices[i]? = some x →
          ∀ j ∈ sel i, connectedAt A.distMatrix x.alpha (alphaOf indices j)
            (distance (positions.getD j 0) p (some 6) : ℝ) = true) →
        ∃ row ∈ table, ∃ e ∈ row, e.2 = ⊤) ∧
      (∀ (i : ℕ) (p : Vec d ℝ) (x : Idx d), positions[i]? = some p → indices[i]? = some x →
          ∀ j ∈ sel i, connectedAt A.distMatrix x.alpha (alphaOf indices j)
            (distance (positions.getD j 0) p (some 6) : ℝ) = false →
        width = 0 ∨ ∃ row ∈ table, ∀ e ∈ row, e.2 ≠ ⊤) ∧
      (∀ i i', i < positions.length → i' < positions.length → (sel i).length < (sel i').length →
        width = 0 ∨ ∃ row ∈ table, ∀ e ∈ row, e.2 ≠ ⊤) := by
  obtain ⟨-, hk, hpos, -⟩ := hA.queryParams hq
  obtain ⟨q', hq', qw, hrows⟩ := C17_query_neighbors env positions hnd k hk (maxDist : WithTop ℝ)
    (by exact_mod_cast hpos) (some distDecimals) true
  unfold kdTreeQuery at hq'
  rw [if_neg (by omega)] at hq'
  cases hq'
  set q := kdQuery env positions k (maxDist : WithTop ℝ) positions (some distDecimals) false true
    with hqdef
  set T := List.zipWith List.zip q.neighbors q.dists with hT
  have hql : q.neighbors.length = positions.length ∧ q.dists.length = positions.length ∧
      (0 < positions.length → ∃ r ∈ q.dists, ⊤ ∉ r) := by
    obtain ⟨sel, drop, w, -, -, -, -, hc, -, hN, hD⟩ :=
      kdQuery_normal env positions k (by omega) (maxDist : WithTop ℝ) positions
        (some distDecimals) false true
    rw [hqdef, hN, hD]
    refine ⟨by simp, by simp, fun h0 => ?_⟩
    rcases hc rfl with h | ⟨p, hp, h⟩
    · refine ⟨_, List.mem_map_of_mem (List.getElem_mem h0), ?_⟩
      intro ht
      rcases List.mem_append.1 ht with h' | h'
      · obtain ⟨j, -, hj⟩ := List.mem_map.1 h'
        exact absurd hj WithTop.coe_ne_top
      · have := (List.mem_replicate.1 h').1
        omega
    · refine ⟨_, List.mem_map_of_mem hp, ?_⟩
      intro ht
      rcases List.mem_append.1 ht with h' | h'
      · obtain ⟨j, -, hj⟩ := List.mem_map.1 h'
        exact absurd hj WithTop.coe_ne_top
      · have := (List.mem_replicate.1 h').1
        omega
  obtain ⟨hqn, hqd, hfullq⟩ := hql
  have hTl : T.length = indices.length := by
    rw [hT, List.length_zipWith, hqn, hqd, hlen]; simp
  choose! sel hsel using hrows
  have hTrow : ∀ row ∈ T, row.length = qw := by
    intro row hrow
    obtain ⟨i, hi, rfl⟩ := List.mem_iff_getElem.1 hrow
    have hi' : i < positions.length := by rw [← hlen, ← hTl]; exact hi
    obtain ⟨h1, h2, h3, -⟩ := hsel i hi'
    have e1 := (List.getElem?_eq_some_iff.1 h1).2
    have e2 := (List.getElem?_eq_some_iff.1 h2).2
    simp only [hT, List.getElem_zipWith]
    rw [e1, e2]
    simp
    omega
  obtain ⟨hFl, w', hF⟩ := filterNeighbors_rows env A.distMatrix indices T qw hTl hTrow
  have hW := filterNeighbors_width env A.distMatrix indices T
  have hTi : ∀ (i : ℕ) (p : Vec d ℝ), positions[i]? = some p → T[i]? = some
      ((sel i ++ List.replicate (qw - (sel i).length) indices.length).zip
      ((sel i).map (fun j => ((distance (positions.getD j 0) p (some 6) : ℝ) : WithTop ℝ)) ++
        List.replicate (qw - (sel i).length) ⊤)) := by
    intro i p hp
    obtain ⟨hi, hpi⟩ := List.getElem?_eq_some_iff.1 hp
    obtain ⟨h1, h2, -⟩ := hsel i hi
    rw [hT, List.getElem?_zipWith, h1, h2, hlen]
    simp only [hpi]
    rfl
  have hmain : ∀ (i : ℕ) (p : Vec d ℝ) (x : Idx d),
        positions[i]? = some p → indices[i]? = some x → ∃ (row : List (ℕ × WithTop ℝ)),
          (filterNeighbors env A.distMatrix indices T indices)[i]? = some row ∧
          row.length = w' ∧ (row.map Prod.snd).Pairwise (· ≤ ·) ∧
          (row.filter isLink).Perm (((sel i).filter fun j => connectedAt A.distMatrix x.alpha
            (alphaOf indices j) (distance (positions.getD j 0) p (some 6) : ℝ)).map
              fun j => (j, ((distance (positions.getD j 0) p (some 6) : ℝ) : WithTop ℝ))) := by
    intro i p x hp hx
    obtain ⟨row', g1, g2, g3, g4, g5⟩ := hF i _ x (hTi i p hp) hx
    obtain ⟨f1, f2⟩ := filterRow_links A.distMatrix indices x.alpha (sel i)
      (fun j => distance (positions.getD j 0) p (some 6)) (qw - (sel i).length)
    rw [f1] at g4
    exact ⟨row', g1, g2, g3, g4⟩
  refine ⟨filterNeighbors env A.distMatrix indices T indices, sel, w', ?_,
    by rw [hFl, hTl, hlen], ?_, ?_, ?_, ?_⟩
  · unfold computeNeighbors
    simp only [hSA, hq]
    rfl
  · intro i p x hp hx
    obtain ⟨row, r1, r2, r3, r4⟩ := hmain i p x hp hx
    obtain ⟨hi, hpi⟩ := List.getElem?_eq_some_iff.1 hp
    obtain ⟨h1, h2, h3, h4, h5, h6, h7, h8, h9⟩ := hsel i hi
    rw [hpi] at h6 h8 h9
    refine ⟨row, r1, r2, r3, r4, ?_, ?_⟩
    · intro j hj
      obtain ⟨a1, a2, a3⟩ := h6 j hj
      exact ⟨a1, a2, by exact_mod_cast a3⟩
    · intro j hj hji hlt
      exact h9 j hj hji (by exact_mod_cast hlt)
  · intro h0 hall
    rcases hW with ⟨-, hW⟩ | ⟨⟨i, row, x, h1, h2, e, he, htop⟩, -⟩
    · have hpos0 : 0 < (filterNeighbors env A.distMatrix indices T indices).length := by
        rw [hFl, hTl, hlen]; exact h0
      exact ⟨_, List.getElem_mem hpos0, _, hW _ (List.getElem_mem hpos0), rfl⟩
    · -- row `i` has fewer links than another row
      have hi : i < positions.length := by
        rw [← hlen]; exact (List.getElem?_eq_some_iff.1 h2).1
      have hp := List.getElem?_eq_getElem hi
      have hTi' := hTi i _ hp
      rw [h1] at hTi'
      cases hTi'
      obtain ⟨row, r1, r2, -, r4⟩ := hmain i _ x hp h2
      have hfi : (sel i).filter (fun j => connectedAt A.distMatrix x.alpha
            (alphaOf indices j) (distance (positions.getD j 0) positions[i] (some 6) : ℝ)) =
          sel i := List.filter_eq_self.2 fun j hj => hall i _ x hp h2 j hj
      have hlt : (sel i).length < qw := by
        have hex := (filterRow_links A.distMatrix indices x.alpha (sel i)
          (fun j => distance (positions.getD j 0) positions[i] (some 6))
          (qw - (sel i).length)).1
        rw [hfi] at hex
        have hl := congrArg List.length hex
        rw [List.length_map] at hl
        have hfl := filterRow_length A.distMatrix indices x.alpha
          ((sel i ++ List.replicate (qw - (sel i).length) indices.length).zip
          ((sel i).map (fun j => ((distance (positions.getD j 0) positions[i] (some 6) : ℝ) :
            WithTop ℝ)) ++ List.replicate (qw - (sel i).length) ⊤))
        have hTl' := hTrow _ (List.mem_of_getElem? h1)
        rw [hTl'] at hfl
        clear_value T
        revert hl hfl he
        generalize filterRow A.distMatrix indices x.alpha _ = R
        intro he hl hfl
        have h3 : (R.filter isLink).length < R.length := by
          refine lt_of_le_of_ne (List.length_filter_le _ _) ?_
          intro heq
          rw [List.length_filter_eq_length_iff] at heq
          have := heq e he
          simp [htop] at this
        omega
      obtain ⟨r, hr, hrt⟩ := hfullq h0
      obtain ⟨i', hi'⟩ := List.mem_iff_getElem?.1 hr
      have hi'' : i' < positions.length := by
        rw [← hqd]; exact (List.getElem?_eq_some_iff.1 hi').1
      have hx' := List.getElem?_eq_getElem (l := indices) (i := i') (by omega)
      have hp' := List.getElem?_eq_getElem hi''
      obtain ⟨row', r1', r2', -, r4'⟩ := hmain i' _ _ hp' hx'
      have hqw : (sel i').length = qw := by
        obtain ⟨-, g2, g3, -⟩ := hsel i' hi''
        rw [hi'] at g2
        cases g2
        by_contra hne
        apply hrt
        refine List.mem_append_right _ ?_
        rw [List.mem_replicate]
        exact ⟨by omega, rfl⟩
      have hfi' : (sel i').filter (fun j => connectedAt A.distMatrix (indices[i']'(by omega)).alpha
            (alphaOf indices j) (distance (positions.getD j 0) positions[i'] (some 6) : ℝ)) =
          sel i' := List.filter_eq_self.2 fun j hj => hall i' _ _ hp' hx' j hj
      rw [hfi] at r4
      rw [hfi'] at r4'
      have l1 := r4.length_eq
      have l2 := r4'.length_eq
      rw [List.length_map] at l1 l2
      have l3 := List.length_filter_le isLink row'
      refine ⟨row, List.mem_of_getElem? r1, ?_⟩
      by_contra hno
      push Not at hno
      have : row.filter isLink = row := List.filter_eq_self.2 fun e he => by
        simpa using hno e he
      rw [this] at l1
      omega
  · intro i p x hp hx j hj hcon
    rcases hW with ⟨hW, -⟩ | ⟨-, hW⟩
    · exfalso
      have hT1 := hTi i p hp
      have hm : (j, ((distance (positions.getD j 0) p (some 6) : ℝ) : WithTop ℝ)) ∈
          ((sel i ++ List.replicate (qw - (sel i).length) indices.length).zip
          ((sel i).map (fun j => ((distance (positions.getD j 0) p (some 6) : ℝ) : WithTop ℝ)) ++
            List.replicate (qw - (sel i).length) ⊤)) := by
        rw [List.zip_append (by simp)]
        refine List.mem_append_left _ ?_
        rw [← List.map_id (sel i), List.map_map, List.zip_map', List.mem_map]
        exact ⟨j, by simpa using hj, rfl⟩
      refine hW i _ x hT1 hx (indices.length, ⊤) ?_ rfl
      unfold filterRow
      refine List.mem_map.2 ⟨_, hm, ?_⟩
      dsimp only
      rw [if_neg (by rw [hcon]; simp)]
    · by_cases h0 : w' = 0
      · exact Or.inl h0
      · right
        obtain ⟨row, r1, r2, -⟩ := hmain i p x hp hx
        refine hW ⟨row, List.mem_of_getElem? r1, ?_⟩
        rintro rfl
        exact h0 r2.symm
  · intro i i' hi hi' hlt
    have hp := List.getElem?_eq_getElem hi
    have hx := List.getElem?_eq_getElem (l := indices) (i := i) (by omega)
    rcases hW with ⟨hW, -⟩ | ⟨-, hW⟩
    · exfalso
      have hT1 := hTi i _ hp
      have hall := hW i _ _ hT1 hx
      have hex := (filterRow_links A.distMatrix indices (indices[i]'(by omega)).alpha (sel i)
          (fun j => distance (positions.getD j 0) positions[i] (some 6))
          (qw - (sel i).length)).1
      have hfl := filterRow_length A.distMatrix indices (indices[i]'(by omega)).alpha
          ((sel i ++ List.replicate (qw - (sel i).length) indices.length).zip
          ((sel i).map (fun j => ((distance (positions.getD j 0) positions[i] (some 6) : ℝ) :
            WithTop ℝ)) ++ List.replicate (qw - (sel i).length) ⊤))
      rw [hTrow _ (List.mem_of_getElem? hT1)] at hfl
      rw [List.filter_eq_self.2 (fun e he => by simpa using hall e he)] at hex
      have hl := congrArg List.length hex
      rw [List.length_map] at hl
      have h1 := List.length_filter_le (fun j => connectedAt A.distMatrix
        (indices[i]'(by omega)).alpha (alphaOf indices j)
        (distance (positions.getD j 0) positions[i] (some 6) : ℝ)) (sel i)
      have h2 := (hsel i' hi').2.2.1
      omega
    · by_cases h0 : w' = 0
      · exact Or.inl h0
      · right
        obtain ⟨row, r1, r2, -⟩ := hmain i _ _ hp hx
        refine hW ⟨row, List.mem_of_getElem? r1, ?_⟩
        rintro rfl
        exact h0 r2.symm

/-- What `set` stores for a table of neighbours and distances with largest distance `M`: the
neighbours of a site are the entries of its row with a smaller distance. -/
theorem set_table {K : Type*} [LinearOrder K] (indices : List (Fin (d + 1) → ℤ))
    (positions : List (Vec d K)) (table : List (List (ℕ × WithTop K))) (M : WithTop K)
    (hM : ∃ row ∈ table, ∃ e ∈ row, e.2 = M) (hmax : ∀ row ∈ table, ∀ e ∈ row, e.2 ≤ M)
    {D : LatticeData d K}
    (hD : LatticeData.set indices positions (table.map fun r => r.map Prod.fst)
      (table.map fun r => r.map Prod.snd) = .ok D)
    (h256 : D.distvals.length ≤ 256) :
    D.indices = indices ∧ D.positions = positions ∧ D.invalidIdx = indices.length ∧
    D.distvals[D.invalidDistidx]? = some M ∧ D.dmap = none ∧
    D.distvals.Pairwise (· < ·) ∧ (∀ x, x ∈ D.distvals ↔ ∃ row ∈ table, ∃ e ∈ row, e.2 = x) ∧
    (∀ (i : ℕ) (row : List (ℕ × WithTop K)), table[i]? = some row →
      D.neighbors[i]? = some (row.map Prod.fst) ∧ D.pmask[i]? = some (row.map fun _ => false) ∧
      D.getNeighbors i none none false = .ok ((row.filter fun e => decide (e.2 ≠ M)).map Prod.fst) ∧
      (∀ l x, D.distvals[l]? = some x → D.getNeighbors i (some l) none false =
          .ok ((row.filter fun e => decide (e.2 = x)).map Prod.fst)) ∧
      D.getNeighbors i none (some true) false = .ok [] ∧
      ∃ lr, D.distances[i]? = some lr ∧
        lr.map (fun l => D.distvals[l]?) = row.map (fun e => some e.2)) := by
  set distances := table.map fun r => r.map Prod.snd with hdist
  have hfl : ∀ x, x ∈ distances.flatten ↔ ∃ row ∈ table, ∃ e ∈ row, e.2 = x := by
    intro x
    simp [hdist, List.mem_flatten]
  have hMf : M ∈ distances.flatten := (hfl M).2 hM
  have hmaxf : ∀ x ∈ distances.flatten, x ≤ M := by
    intro x hx
    obtain ⟨row, hr, e, he, rfl⟩ := (hfl x).1 hx
    exact hmax row hr e he
  have hdv : D.distvals = npUnique distances.flatten := by
    rcases set_cases indices positions (table.map fun r => r.map Prod.fst) distances with
      ⟨-, h⟩ | ⟨-, D', h, -, -, -, h', -⟩
    · rw [hD] at h; cases h
    · rw [hD] at h; cases h; exact h'
  have h256' : distances.flatten.dedup.length ≤ 256 := by
    rw [hdv] at h256
    simpa [npUnique] using h256
  have hset := set_ok indices positions (table.map fun r => r.map Prod.fst) distances M hMf hmaxf h256'
  rw [hD] at hset
  simp only [Except.ok.injEq] at hset
  subst hset
  refine ⟨rfl, rfl, rfl, npUnique_searchsorted hMf, rfl, npUnique_pairwise_lt _, ?_, ?_⟩
  · intro x
    rw [← hfl]
    exact mem_npUnique
  intro i row hrow
  have hzm : ∀ p ∈ row, p.2 ∈ distances.flatten := fun p hp =>
    (hfl _).2 ⟨row, List.mem_of_getElem? hrow, p, hp, rfl⟩
  have hn : (table.map fun r => r.map Prod.fst)[i]? = some (row.map Prod.fst) := by
    rw [List.getElem?_map, hrow]; rfl
  have hd' : distances[i]? = some (row.map Prod.snd) := by
    rw [hdist, List.getElem?_map, hrow]; rfl
  refine ⟨hn, ?_, ?_⟩
  · simp only [List.getElem?_map, hrow, Option.map_some, List.map_map, Function.comp_def]
  simp only [LatticeData.getNeighbors, LatticeData.neighborMask, List.getElem?_map, hn, hd', hrow,
    Option.map_some, List.map_map]
  refine ⟨?_, ?_, ?_, ?_⟩
  · simp only [if_neg Bool.false_ne_true]
    rw [show (List.map ((fun x => decide (x < searchsorted (npUnique distances.flatten) M)) ∘
      searchsorted (npUnique distances.flatten) ∘ Prod.snd) row) =
      row.map fun p => decide (p.2 ≠ M) from ?_]
    · rw [maskRow_map]
    · apply List.map_congr_left
      intro p hp
      simp only [Function.comp_apply, searchsorted_lt_iff (hzm p hp) hMf]
      congr 1
      exact propext ⟨fun h => h.ne, fun h => lt_of_le_of_ne (hmaxf _ (hzm p hp)) h⟩
  · intro l x hx
    have hxm : x ∈ distances.flatten := mem_npUnique.1 (List.mem_of_getElem? hx)
    have hl' := searchsorted_eq_of_getElem? (npUnique_pairwise_lt _) hx
    simp only [if_neg Bool.false_ne_true]
    rw [show (List.map ((fun x => decide (x = l)) ∘
      searchsorted (npUnique distances.flatten) ∘ Prod.snd) row) =
      row.map fun p => decide (p.2 = x) from ?_]
    · rw [maskRow_map]
    · apply List.map_congr_left
      intro p hp
      simp only [Function.comp_apply, ← hl']
      congr 1
      apply propext
      constructor
      · intro h
        have h1 := npUnique_searchsorted (hzm p hp)
        rw [h, npUnique_searchsorted hxm] at h1
        exact (Option.some.inj h1).symm
      · rintro rfl; rfl
  · simp only [if_neg Bool.false_ne_true]
    rw [Function.comp_apply, List.zipWith_map, List.zipWith_map_right, List.zipWith_self]
    simp only [Function.comp_apply, Bool.and_false]
    rw [maskRow_map]
    simp
  · refine ⟨_, rfl, ?_⟩
    rw [List.map_map]
    apply List.map_congr_left
    intro p hp
    exact npUnique_searchsorted (hzm p hp)

namespace Lattice

/-- The steps of `buildData`. -/
theorem buildData_ok {env : Env ℝ} {S : Structure d ℝ} {a : BuildArgs d ℝ} {shape : AShape d ℝ}
    {D : LatticeData d ℝ} (h : buildData env S a shape = .ok D) :
    ∃ indices positions table indices' positions' table',
      S.buildIndices (.shape shape) a.primitive a.pos a.check a.callback a.bits =
        .ok (indices, positions) ∧
      computeNeighbors env S indices positions = .ok table ∧
      dropDangling a.minNeighbors indices positions table = .ok (indices', positions', table') ∧
      LatticeData.set indices' positions' (table'.map fun r => r.map Prod.fst)
        (table'.map fun r => r.map Prod.snd) = .ok D := by
  unfold buildData at h
  split at h
  · cases h
  · rename_i indices positions h1
    split at h
    · cases h
    · rename_i table h2
      split at h
      · cases h
      · rename_i indices' positions' table' h3
        exact ⟨_, _, _, _, _, _, h1, h2, h3, h⟩

/-- The result of a successful build without periodic boundary conditions. -/
theorem build_ok {env : Env ℝ} {L L' : Lattice d ℝ} {a : BuildArgs d ℝ} (hp : a.periodic = none)
    (h : L.build env a = (L', .ok ())) :
    ∃ A shape D lo hi, L.struct.analysis = some A ∧ buildShape L.struct a = .ok shape ∧
      buildData env L.struct a shape = .ok D ∧ D.getLimits = .ok (lo, hi) ∧
      L' = { L with data := some D, primitive := some a.primitive,
                    shape := some fun k => hi k - lo k, pos := some lo } := by
  unfold build at h
  split at h
  · cases h
  · rename_i h1
    have hA : ∃ A, L.struct.analysis = some A := by
      unfold assertReady at h1
      cases hA : L.struct.analysis with
      | some A => exact ⟨A, rfl⟩
      | none => simp only [hA] at h1; split_ifs at h1
    obtain ⟨A, hA⟩ := hA
    split at h
    · cases h
    · rename_i shape h2
      split at h
      · cases h
      · rename_i D h3
        unfold updateShape at h
        simp only at h
        cases hl : D.getLimits with
        | error e => simp [hl] at h
        | ok lim =>
          obtain ⟨lo, hi⟩ := lim
          simp only [hl, hp] at h
          cases h
          exact ⟨A, shape, D, lo, hi, hA, h2, h3, hl, rfl⟩

/-- A build succeeds if its steps do. -/
theorem build_of {env : Env ℝ} {L : Lattice d ℝ} {a : BuildArgs d ℝ} {A : Analysis d ℝ}
    (hA : L.struct.analysis = some A) (hc : ∀ c, L.struct.conn = some c → c.allZero = false)
    {shape : AShape d ℝ} (hsh : buildShape L.struct a = .ok shape) {indices : List (Idx d)}
    {positions : List (Vec d ℝ)}
    (hbi : L.struct.buildIndices (.shape shape) a.primitive a.pos a.check a.callback a.bits =
      .ok (indices, positions)) {table : List (List (ℕ × WithTop ℝ))}
    (hcomp : computeNeighbors env L.struct indices positions = .ok table)
    {indices' : List (Idx d)} {positions' : List (Vec d ℝ)} {table' : List (List (ℕ × WithTop ℝ))}
    (hdrop : dropDangling a.minNeighbors indices positions table =
      .ok (indices', positions', table')) {D : LatticeData d ℝ}
    (hset : LatticeData.set indices' positions' (table'.map fun r => r.map Prod.fst)
        (table'.map fun r => r.map Prod.snd) = .ok D) {lo hi : Vec d ℝ}
    (hlim : D.getLimits = .ok (lo, hi)) (hp : a.periodic = none) :
    L.build env a = ({ L with
      data := some D, primitive := some a.primitive, shape := some fun k => hi k - lo k,
      pos := some lo }, .ok ()) := by
  have hready : assertReady L.struct = .ok () := by
    unfold assertReady
    cases hc' : L.struct.conn with
    | none => simp only [hA, if_true]
    | some c => simp only [hA, hc c hc', Bool.not_false, if_true]
  have hdata : buildData env L.struct a shape = .ok D := by
    unfold buildData
    simp only [hbi, hcomp, hdrop, hset]
  unfold build updateShape
  simp only [hready, hsh, hdata, hlim, hp]

theorem getLimits_ok {D : LatticeData d ℝ} (h : 0 < D.positions.length) :
    ∃ lo hi, D.getLimits = .ok (lo, hi) := by
  unfold LatticeData.getLimits
  cases hp : D.positions with
  | nil => rw [hp] at h; cases h
  | cons v vs => exact ⟨_, _, rfl⟩

end Lattice

end Lattpy

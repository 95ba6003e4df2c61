import Verif.Lemmas.Dimer

/-!
# C59: examples and concrete counterexamples
-/

set_option autoImplicit false
set_option linter.unusedSectionVars false

namespace Lattpy

open Structure World

/-- The hypotheses of `C59_hypercubic_partial` and `C59_nearest_partial` are met by the chain of 10
sites; site 0 has one neighbour, site 4 has two. -/
example (env : Env ℝ) : ∃ (w0 : World 1 ℝ) (c : ConnMatrix) (L L' : Lattice 1 ℝ)
    (a : BuildArgs 1 ℝ), Reachable env w0 ∧ w0.struct.positions = [0] ∧ w0.struct.conn = some c ∧
    w0.struct.basis.vectors = 1 ∧ c.entry 0 0 = 1 ∧ L.world = (w0.call env .analyze).1 ∧
    w0.struct.analyze env = (L.struct, .ok ()) ∧ a.minNeighbors = none ∧ a.periodic = none ∧
    a.bits = none ∧ L.build env a = (L', .ok ()) ∧
    (∃ l, L'.neighbors 0 none false = .ok l ∧ l.Perm [1]) ∧
    (∃ l, L'.neighbors 4 none false = .ok l ∧ l.Perm [3, 5]) := by
  obtain ⟨w, A, c, L, D, table, ⟨w0, hr0, hp0, hc0, hb0, hw0, han⟩, hr, hb, hp, hc, hcs, hc1, hA,
    hbuild, hw, hD, -, -, -, hDi, hDp, -⟩ :=
    exists_built_chain env Nat.one_pos (by norm_num) 9 (fun _ => true) (by decide)
  obtain ⟨D', hD', hs, hnd, hnb⟩ := C59_nearest_partial Nat.one_pos hr0 hp0 hc0 hb0 hc1 (by norm_num)
    (L := Lattice.ofWorld w) hw0 han rfl rfl rfl hbuild
  rw [hD] at hD'
  cases hD'
  have hidx : ∀ i : ℕ, i < 10 → D.indices[i]? = some (Idx.mk (fun _ => (i : ℤ)) 0) := by
    intro i hi
    rw [hDi]
    have : chainCells 9 (fun _ => true) = List.range 10 := by decide
    rw [this, List.getElem?_map, List.getElem?_range hi]
    rfl
  have hnum : D.numSites = 10 := by
    have : D.indices.length = 10 := by rw [hDi, List.length_map]; decide
    exact this
  have key : ∀ (i : ℕ), i < 10 → ∀ l', l'.Nodup → (∀ j : ℕ, j ∈ l' ↔ j < 10 ∧ (j + 1 = i ∨ j = i + 1)) →
      ∃ l, L.neighbors i none false = .ok l ∧ l.Perm l' := by
    intro i hi l' hl' hm
    obtain ⟨l, h1, h2, h3⟩ := hnb i (by rw [hnum]; exact hi)
    refine ⟨l, h1, (List.perm_ext_iff_of_nodup h2 hl').2 fun j => ?_⟩
    rw [h3, hm]
    constructor
    · rintro ⟨x, y, hx, hy, hs⟩
      have hj : j < 10 := by
        rw [← show D.indices.length = 10 from hnum]; exact (List.getElem?_eq_some_iff.1 hy).1
      rw [hidx i hi] at hx
      rw [hidx j hj] at hy
      cases hx
      cases hy
      rw [Fin.sum_univ_one] at hs
      simp only [Idx.cell_mk] at hs
      refine ⟨hj, ?_⟩
      rcases abs_cases ((j : ℤ) - i) with ⟨h, -⟩ | ⟨h, -⟩ <;> omega
    · rintro ⟨hj, hij⟩
      refine ⟨_, _, hidx i hi, hidx j hj, ?_⟩
      rw [Fin.sum_univ_one]
      simp only [Idx.cell_mk]
      rcases hij with h | h
      · rw [abs_eq (by norm_num)]; omega
      · rw [abs_eq (by norm_num)]; omega
  refine ⟨w0, c, Lattice.ofWorld w, L, _, hr0, hp0, hc0, hb0, hc1, hw0, han, rfl, rfl, rfl, hbuild,
    key 0 (by norm_num) [1] (by decide) ?_, key 4 (by norm_num) [3, 5] (by decide) ?_⟩
  · intro j; simp; omega
  · intro j; simp; omega

/-- The arguments building the cells `0 … N` of the dimerised chain. -/
noncomputable def dimerArgs (N : ℕ) (keep : ℕ × ℕ → Bool) : BuildArgs 1 ℝ :=
  { shape := .shape (.box (fun _ => (N : ℝ) * 10 + 3) 0 none)
    callback := keepSites fun x => keep ((x.cell 0).toNat, x.alpha.toNat) }

/-- The dimerised chain of two cells. -/
theorem dimer_two_cells {env : Env ℝ} {w : World 1 ℝ} {A : Analysis 1 ℝ} (h : IsDimer env w A) :
    ∃ (L : Lattice 1 ℝ) (D : LatticeData 1 ℝ),
      (Lattice.ofWorld w).build env (dimerArgs 1 fun _ => true) = (L, .ok ()) ∧
      L.data = some D ∧ D.positions = [fun _ => 0, fun _ => 3, fun _ => 10, fun _ => 13] ∧
      Configured A 0 0 10 ∧ ShouldLink A D 0 2 ∧ L.neighbors 0 none false = .ok [1] := by
  obtain ⟨table, width, hcomp, htl, hw, hrnd, hlink, hW⟩ := dimer_table h
    [(0, 0), (0, 1), (1, 0), (1, 1)] (by decide) (by decide) (by decide)
  have hbi := dimer_buildIndices h 1 fun _ => true
  have hs4 : ((List.range (1 + 1)).flatMap fun n => [(n, 0), (n, 1)]).filter (fun _ => true) =
      [(0, 0), (0, 1), (1, 0), (1, 1)] := by decide
  rw [hs4] at hbi
  have hE : ∀ i j, (∃ x, Linked table i j x) ↔
      (i, j) ∈ [(0, 1), (0, 2), (1, 0), (1, 3), (2, 0), (2, 3), (3, 1), (3, 2)] := by
    intro i j
    constructor
    · rintro ⟨x, hx⟩
      obtain ⟨s, t, hs, ht, hij, -, hl⟩ := (hlink i j x).1 hx
      have hi : i < 4 := (List.getElem?_eq_some_iff.1 hs).1
      have hj : j < 4 := (List.getElem?_eq_some_iff.1 ht).1
      interval_cases i <;> interval_cases j <;>
        simp only [List.getElem?_cons_zero, List.getElem?_cons_succ, Option.some_inj] at hs ht <;>
        subst hs <;> subst ht <;> revert hl hij <;> decide
    · intro hm
      simp only [List.mem_cons, Prod.mk.injEq, List.not_mem_nil, or_false] at hm
      rcases hm with ⟨rfl, rfl⟩ | ⟨rfl, rfl⟩ | ⟨rfl, rfl⟩ | ⟨rfl, rfl⟩ | ⟨rfl, rfl⟩ | ⟨rfl, rfl⟩ |
        ⟨rfl, rfl⟩ | ⟨rfl, rfl⟩ <;>
      exact ⟨_, (hlink _ _ _).2 ⟨_, _, rfl, rfl, by decide, rfl, by decide⟩⟩
  have hmemrow : ∀ (i : ℕ) (row : List (ℕ × WithTop ℝ)), table[i]? = some row → ∀ j,
      j ∈ (row.filter isLink).map Prod.fst ↔ ∃ x, Linked table i j x := by
    intro i row hrow j
    rw [List.mem_map]
    constructor
    · rintro ⟨⟨j', y⟩, he, rfl⟩
      obtain ⟨he1, he2⟩ := List.mem_filter.1 he
      obtain ⟨x, rfl⟩ := WithTop.ne_top_iff_exists.1 (of_decide_eq_true he2)
      exact ⟨x, _, hrow, he1⟩
    · rintro ⟨x, row', hrow', he⟩
      rw [hrow] at hrow'
      cases hrow'
      exact ⟨_, List.mem_filter.2 ⟨he, by simp [isLink]⟩, rfl⟩
  have hcount : ∀ row ∈ table, (row.filter isLink).length = 2 := by
    intro row hrow
    obtain ⟨i, hi⟩ := List.mem_iff_getElem?.1 hrow
    have hi4 : i < 4 := by rw [← show table.length = 4 from htl]; exact (List.getElem?_eq_some_iff.1 hi).1
    have hp : ∀ l : List ℕ, l.Nodup → (∀ j, j ∈ l ↔
        (i, j) ∈ [(0, 1), (0, 2), (1, 0), (1, 3), (2, 0), (2, 3), (3, 1), (3, 2)]) →
        (row.filter isLink).length = l.length := by
      intro l hl hm
      have : ((row.filter isLink).map Prod.fst).Perm l := by
        rw [List.perm_ext_iff_of_nodup (hrnd row hrow) hl]
        intro j
        rw [hmemrow i row hi, hE, hm]
      rw [← this.length_eq, List.length_map]
    interval_cases i
    · exact hp [1, 2] (by decide) (by intro j; simp)
    · exact hp [0, 3] (by decide) (by intro j; simp)
    · exact hp [0, 3] (by decide) (by intro j; simp)
    · exact hp [1, 2] (by decide) (by intro j; simp)
  have h0 : (0 : ℕ) < table.length := by rw [htl]; decide
  have hr0 := List.getElem?_eq_getElem h0
  have hwidth : width = 2 := by
    rcases hW 1 2 (0, 1) (1, 0) rfl rfl (by decide) (by decide) (by decide) with h | ⟨row, hrow, hfull⟩
    · have h1 := hcount _ (List.getElem_mem h0)
      have h2 := hw _ (List.getElem_mem h0)
      have h3 := List.length_filter_le isLink table[0]
      omega
    · have h1 := hcount row hrow
      rw [List.filter_eq_self.2 (fun e he => by simpa [isLink] using hfull e he), hw row hrow] at h1
      exact h1
  have hfull : ∀ row ∈ table, ∀ e ∈ row, e.2 ≠ ⊤ := by
    intro row hrow e he
    have h1 : (row.filter isLink).length = row.length := by
      rw [hcount row hrow, hw row hrow, hwidth]
    have h2 := List.length_filter_eq_length_iff.1 h1 e he
    simpa [isLink] using h2
  have hentry : ∀ row ∈ table, ∀ e ∈ row, e.2 = ((3 : ℝ) : WithTop ℝ) ∨ e.2 = ((10 : ℝ) : WithTop ℝ) := by
    rintro row hrow ⟨j, y⟩ he
    obtain ⟨i, hi⟩ := List.mem_iff_getElem?.1 hrow
    obtain ⟨x, rfl⟩ := WithTop.ne_top_iff_exists.1 (hfull row hrow _ he)
    obtain ⟨s, t, -, -, -, rfl, hl⟩ := (hlink i j x).1 ⟨row, hi, he⟩
    unfold dimerLink at hl
    rw [hl]
    split_ifs
    · right; norm_num
    · left; norm_num
  have hl02 : Linked table 0 2 10 := by
    refine (hlink _ _ _).2 ⟨_, _, rfl, rfl, by decide, ?_, by decide⟩
    norm_num [dimerPos]
  have hl01 : Linked table 0 1 3 := by
    refine (hlink _ _ _).2 ⟨_, _, rfl, rfl, by decide, ?_, by decide⟩
    norm_num [dimerPos]
  obtain ⟨row0, hrow0, hm02⟩ := hl02
  obtain ⟨row0', hrow0', hm01⟩ := hl01
  rw [hrow0] at hrow0'
  cases hrow0'
  obtain ⟨D, hset⟩ : ∃ D, LatticeData.set ([(0, 0), (0, 1), (1, 0), (1, 1)].map dimerIdx)
      ([(0, 0), (0, 1), (1, 0), (1, 1)].map dimerVec) (table.map fun r => r.map Prod.fst)
      (table.map fun r => r.map Prod.snd) = .ok D := by
    rcases set_cases ([(0, 0), (0, 1), (1, 0), (1, 1)].map dimerIdx)
        ([(0, 0), (0, 1), (1, 0), (1, 1)].map dimerVec) (table.map fun r => r.map Prod.fst)
        (table.map fun r => r.map Prod.snd) with ⟨hf, -⟩ | ⟨-, D, h1, -⟩
    · have : ((10 : ℝ) : WithTop ℝ) ∈ (table.map fun r => r.map Prod.snd).flatten :=
        List.mem_flatten.2 ⟨_, List.mem_map.2 ⟨row0, List.mem_of_getElem? hrow0, rfl⟩,
          List.mem_map.2 ⟨_, hm02, rfl⟩⟩
      rw [hf] at this
      cases this
    · exact ⟨D, h1⟩
  have hmd := fun x => mem_distvals hset x
  have hdv : D.distvals.length ≤ 256 := by
    have hnd : D.distvals.Nodup := by
      rcases set_cases ([(0, 0), (0, 1), (1, 0), (1, 1)].map dimerIdx)
        ([(0, 0), (0, 1), (1, 0), (1, 1)].map dimerVec) (table.map fun r => r.map Prod.fst)
        (table.map fun r => r.map Prod.snd) with ⟨-, h⟩ | ⟨-, D', h, -, -, -, h8, -⟩
      · rw [hset] at h; cases h
      · rw [hset] at h
        cases h
        rw [h8]
        exact (npUnique_pairwise_lt _).imp fun h => ne_of_lt h
    have : D.distvals ⊆ [((3 : ℝ) : WithTop ℝ), ((10 : ℝ) : WithTop ℝ)] := by
      intro x hx
      obtain ⟨row, hrow, e, he, rfl⟩ := (hmd x).1 hx
      simpa using hentry row hrow e he
    exact ((hnd.subperm this).length_le).trans (by norm_num)
  obtain ⟨hDi, hDp, -, -, -, -, -, hget⟩ := set_table _ _ table ((10 : ℝ) : WithTop ℝ)
    ⟨row0, List.mem_of_getElem? hrow0, _, hm02, rfl⟩ (by
      intro row hrow e he
      rcases hentry row hrow e he with h | h <;> rw [h]
      exact_mod_cast (by norm_num : (3 : ℝ) ≤ 10)) hset hdv
  obtain ⟨-, -, g1, -⟩ := hget 0 row0 hrow0
  obtain ⟨lo, hi, hlim⟩ := Lattice.getLimits_ok (D := D) (by rw [hDp]; decide)
  obtain ⟨c, hc, hcs, hce⟩ := h.conn
  have hDp' : D.positions = [fun _ => 0, fun _ => 3, fun _ => 10, fun _ => 13] := by
    rw [hDp]
    simp only [List.map_cons, List.map_nil]
    unfold dimerVec dimerPos
    norm_num
  refine ⟨_, D,
    Lattice.build_of (L := Lattice.ofWorld w) (a := dimerArgs 1 fun _ => true) h.analysis ?_ rfl hbi
      hcomp rfl hset hlim rfl, rfl, hDp', ?_, ?_, ?_⟩
  · intro c' hc'
    have hc' : w.struct.conn = some c' := hc'
    rw [hc] at hc'
    cases hc'
    by_contra hz
    rw [Bool.not_eq_false, ConnMatrix.allZero_iff] at hz
    have h1 := hz 0 (by omega) 0 (by omega)
    have h2 := hce 0 0 (by norm_num) (by norm_num)
    omega
  · exact (h.configured 0 0 10).2 (by norm_num)
  · refine ⟨by norm_num, fun _ => 0, fun _ => 10, dimerIdx (0, 0), dimerIdx (1, 0), by rw [hDp']; rfl,
      by rw [hDp']; rfl, by rw [hDi]; rfl, by rw [hDi]; rfl, ?_⟩
    have h1 := (h.configured 0 0 10).2 (by norm_num)
    have h2 := dimer_dist6 (0, 0) (1, 0)
    have e0 : (fun _ => 0 : Vec 1 ℝ) = dimerVec (0, 0) := by funext k; norm_num [dimerVec, dimerPos]
    have e1 : (fun _ => 10 : Vec 1 ℝ) = dimerVec (1, 0) := by funext k; norm_num [dimerVec, dimerPos]
    rw [e0, e1, h2]
    unfold dimerIdx
    rw [Idx.alpha_mk, Idx.alpha_mk]
    norm_num [dimerPos]
    exact_mod_cast h1
  · change D.getNeighbors 0 none none false = .ok [1]
    rw [g1]
    congr 1
    have hnd0 : ((row0.filter fun e => decide (e.2 ≠ ((10 : ℝ) : WithTop ℝ))).map Prod.fst).Nodup := by
      have h1 := hrnd row0 (List.mem_of_getElem? hrow0)
      rw [List.filter_eq_self.2 (fun e he => by
        simpa [isLink] using hfull row0 (List.mem_of_getElem? hrow0) e he)] at h1
      exact h1.sublist (List.filter_sublist.map _)
    have hperm : ((row0.filter fun e => decide (e.2 ≠ ((10 : ℝ) : WithTop ℝ))).map Prod.fst).Perm
        [1] := by
      rw [List.perm_ext_iff_of_nodup hnd0 (by decide)]
      intro j
      rw [List.mem_map, List.mem_singleton]
      constructor
      · rintro ⟨⟨j', y⟩, he, rfl⟩
        obtain ⟨he1, he2⟩ := List.mem_filter.1 he
        rw [decide_eq_true_eq] at he2
        obtain ⟨x, rfl⟩ := WithTop.ne_top_iff_exists.1
          (hfull row0 (List.mem_of_getElem? hrow0) _ he1)
        have h1 := (hE 0 j').1 ⟨x, row0, hrow0, he1⟩
        simp only [List.mem_cons, Prod.mk.injEq, List.not_mem_nil, or_false, true_and] at h1
        have h2 : j' = 1 ∨ j' = 2 := by omega
        rcases h2 with rfl | rfl
        · rfl
        · exfalso
          obtain ⟨s, t, hs, ht, -, hx, -⟩ := (hlink 0 2 x).1 ⟨row0, hrow0, he1⟩
          cases hs
          cases ht
          apply he2
          rw [hx]
          norm_num [dimerPos]
      · rintro rfl
        refine ⟨_, List.mem_filter.2 ⟨hm01, ?_⟩, rfl⟩
        rw [decide_eq_true_eq]
        intro h
        have h : ((3 : ℝ) : WithTop ℝ) = ((10 : ℝ) : WithTop ℝ) := h
        rw [WithTop.coe_inj] at h
        norm_num at h
    exact List.perm_singleton.1 hperm

/-- C59 fails for the chain with lattice constant 10 and atoms at 0 and 3, nearest connections
between all atoms: in the lattice of 2 cells (sites at 0, 3, 10, 13) the sites 0 and 2 should be
neighbours (at the configured distance 10) but `neighbors(0)` only is `[1]`. -/
theorem C59_two_atoms_fails (env : Env ℝ) :
    ∃ (w : World 1 ℝ) (A : Analysis 1 ℝ) (L : Lattice 1 ℝ) (D : LatticeData 1 ℝ), Reachable env w ∧
      w.struct.basis.vectors 0 0 = 10 ∧ w.struct.positions = [fun _ => 0, fun _ => 3] ∧
      w.struct.analysis = some A ∧
      (Lattice.ofWorld w).build env (dimerArgs 1 fun _ => true) = (L, .ok ()) ∧
      L.data = some D ∧ D.positions = [fun _ => 0, fun _ => 3, fun _ => 10, fun _ => 13] ∧
      Configured A 0 0 10 ∧ ShouldLink A D 0 2 ∧ L.neighbors 0 none false = .ok [1] := by
  obtain ⟨w, A, h⟩ := exists_dimer env
  obtain ⟨L, D, h1, h2⟩ := dimer_two_cells h
  exact ⟨w, A, L, D, h.reach, by rw [h.basis, chain_vectors], h.positions, h.analysis, h1, h2⟩

/-- C59 fails, `build` raises `ValueError`: the same chain with only the sites at 3 and 10, which
are within the search radius but not connected. -/
theorem C59_no_links_fails (env : Env ℝ) :
    ∃ (w : World 1 ℝ), Reachable env w ∧ w.struct.basis.vectors 0 0 = 10 ∧
      w.struct.positions = [fun _ => 0, fun _ => 3] ∧ w.struct.analysis ≠ none ∧
      w.struct.buildIndices (dimerArgs 1 fun s => decide (s = (0, 1) ∨ s = (1, 0))).shape false none
        true (dimerArgs 1 fun s => decide (s = (0, 1) ∨ s = (1, 0))).callback none =
        .ok ([Idx.mk (fun _ => 0) 1, Idx.mk (fun _ => 1) 0], [fun _ => 3, fun _ => 10]) ∧
      ((Lattice.ofWorld w).build env (dimerArgs 1 fun s => decide (s = (0, 1) ∨ s = (1, 0)))).2 =
        .error .value := by
  obtain ⟨w, A, h⟩ := exists_dimer env
  obtain ⟨table, width, hcomp, htl, hw, hrnd, hlink, hW⟩ := dimer_table h
    [(0, 1), (1, 0)] (by decide) (by decide) (by decide)
  have hbi := dimer_buildIndices h 1 fun s => decide (s = (0, 1) ∨ s = (1, 0))
  have hs2 : ((List.range (1 + 1)).flatMap fun n => [(n, 0), (n, 1)]).filter
      (fun s => decide (s = (0, 1) ∨ s = (1, 0))) = [(0, 1), (1, 0)] := by decide
  rw [hs2] at hbi
  have hno : ∀ i j x, ¬ Linked table i j x := by
    intro i j x hx
    obtain ⟨s, t, hs, ht, hij, -, hl⟩ := (hlink i j x).1 hx
    have hi : i < 2 := (List.getElem?_eq_some_iff.1 hs).1
    have hj : j < 2 := (List.getElem?_eq_some_iff.1 ht).1
    interval_cases i <;> interval_cases j <;>
      simp only [List.getElem?_cons_zero, List.getElem?_cons_succ, Option.some_inj] at hs ht <;>
      subst hs <;> subst ht <;> revert hl hij <;> decide
  have hwidth : width = 0 := by
    rcases hW 0 1 (0, 1) (1, 0) rfl rfl (by decide) (by decide) (by decide) with h | ⟨row, hrow, hfull⟩
    · exact h
    · obtain ⟨i, hi⟩ := List.mem_iff_getElem?.1 hrow
      rw [← hw row hrow, List.length_eq_zero_iff]
      cases row with
      | nil => rfl
      | cons e es =>
        exfalso
        obtain ⟨x, hx⟩ := WithTop.ne_top_iff_exists.1 (hfull e (by simp))
        refine hno i e.1 x ⟨_, hi, ?_⟩
        rw [hx]
        simp
  obtain ⟨c, hc, hcs, hce⟩ := h.conn
  refine ⟨w, h.reach, by rw [h.basis, chain_vectors], h.positions, by rw [h.analysis]; simp, ?_, ?_⟩
  · refine hbi.trans ?_
    simp only [List.map_cons, List.map_nil]
    unfold dimerVec dimerPos dimerIdx
    norm_num
  · have hready : Lattice.assertReady w.struct = .ok () := by
      unfold Lattice.assertReady
      have hz : c.allZero = false := by
        by_contra hz
        rw [Bool.not_eq_false, ConnMatrix.allZero_iff] at hz
        have h1 := hz 0 (by omega) 0 (by omega)
        have h2 := hce 0 0 (by norm_num) (by norm_num)
        omega
      simp only [h.analysis, hc, hz, Bool.not_false, if_true]
    have hdata : Lattice.buildData env w.struct
        (dimerArgs 1 fun s => decide (s = (0, 1) ∨ s = (1, 0)))
        (.box (fun _ => ((1 : ℕ) : ℝ) * 10 + 3) 0 none) = .error .value := by
      unfold Lattice.buildData
      have hbi' : w.struct.buildIndices (.shape (.box (fun _ => ((1 : ℕ) : ℝ) * 10 + 3) 0 none))
        (dimerArgs 1 fun s => decide (s = (0, 1) ∨ s = (1, 0))).primitive
        (dimerArgs 1 fun s => decide (s = (0, 1) ∨ s = (1, 0))).pos
        (dimerArgs 1 fun s => decide (s = (0, 1) ∨ s = (1, 0))).check
        (dimerArgs 1 fun s => decide (s = (0, 1) ∨ s = (1, 0))).callback
        (dimerArgs 1 fun s => decide (s = (0, 1) ∨ s = (1, 0))).bits = _ := hbi
      rw [hbi']
      dsimp only
      rw [hcomp]
      dsimp only [dimerArgs, Lattice.dropDangling]
      rcases set_cases ([(0, 1), (1, 0)].map dimerIdx)
        ([(0, 1), (1, 0)].map dimerVec) (table.map fun r => r.map Prod.fst)
        (table.map fun r => r.map Prod.snd) with ⟨-, h⟩ | ⟨hf, -⟩
      · exact h
      · exfalso
        apply hf
        rw [List.flatten_eq_nil_iff]
        intro l hl
        obtain ⟨row, hrow, rfl⟩ := List.mem_map.1 hl
        have := hw row hrow
        rw [hwidth, List.length_eq_zero_iff] at this
        rw [this]
        rfl
    unfold Lattice.build
    have hst : (Lattice.ofWorld w).struct = w.struct := rfl
    have hsh : Lattice.buildShape w.struct (dimerArgs 1 fun s => decide (s = (0, 1) ∨ s = (1, 0))) =
        .ok (.box (fun _ => ((1 : ℕ) : ℝ) * 10 + 3) 0 none) := rfl
    rw [hst, hready]
    dsimp only
    rw [hsh]
    dsimp only
    rw [hdata]

end Lattpy

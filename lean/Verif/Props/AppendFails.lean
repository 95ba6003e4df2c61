import Verif.Props.AppendChain

/-!
# Property C68: where an appended lattice differs from one built directly
-/

set_option autoImplicit false
set_option linter.unusedSectionVars false

namespace Lattpy

open Structure LatticeData

/-- A built chain with its sites `0 … N`: what is needed for joining. -/
theorem IsBuiltChain.struct_eq {env : Env ℝ} {nb N : ℕ} {keep : ℕ → Bool} {w : World 1 ℝ}
    {A : Analysis 1 ℝ} {L : Lattice 1 ℝ} {D : LatticeData 1 ℝ}
    {table : List (List (ℕ × WithTop ℝ))} (h : IsBuiltChain env nb N keep w A L D table) :
    L.struct = w.struct := by unfold Lattice.struct; rw [h.world]

theorem storedLink_top {vals : List (WithTop ℝ)} {j : ℕ} {x : WithTop ℝ}
    (h : ∀ y ∈ vals, y = ⊤ ∨ y < x) : storedLink vals j x = none := by
  obtain ⟨h1, -⟩ := storedAbove_spec (vals := vals) (x := x)
  unfold storedLink
  rw [if_pos]
  rcases h1 with h1 | ⟨h1, h2⟩
  · exact h1
  · rcases h _ h1 with h3 | h3
    · exact h3
    · exact absurd h2 (not_le.2 h3)

namespace Lattice

/-- C68 fails: two chains of two sites with two neighbour shells.  The distance `2` occurs in
neither of them, so after `append` the sites `0` and `2` are not neighbours; they are in the chain
of four sites built directly. -/
theorem C68_lost_link_fails (env : Env ℝ) {w : World 1 ℝ} {A : Analysis 1 ℝ}
    {L L2 L4 : Lattice 1 ℝ} {D D2 D4 : LatticeData 1 ℝ}
    {table table2 table4 : List (List (ℕ × WithTop ℝ))}
    (h1 : IsBuiltChain env 2 1 (fun _ => true) w A L D table)
    (h2 : IsBuiltChain env 2 1 (fun _ => true) w A L2 D2 table2)
    (h4 : IsBuiltChain env 2 3 (fun _ => true) w A L4 D4 table4) :
    ∃ L' E l l4, L.append env L2 0 true none false = (L', .ok ()) ∧ L'.data = some E ∧
      E.positions = D4.positions ∧ L'.neighbors 0 none false = .ok l ∧ 2 ∉ l ∧
      L4.neighbors 0 none false = .ok l4 ∧ 2 ∈ l4 := by
  obtain ⟨r, ⟨⟨k, hq⟩, -, -⟩⟩ := h1.radius (by norm_num)
  obtain ⟨w1, c1, -⟩ := h1.full
  obtain ⟨w2, c2, -⟩ := h2.full
  obtain ⟨w4, c4, -⟩ := h4.full
  obtain ⟨v, hv, hv0⟩ := c1.period_from
  have hs := h1.struct_eq
  obtain ⟨L', E, e1, e2, -, -, -, -, e7, e8, -, e10, -⟩ := chain_interface env h1.data
    (by rw [hs]; exact h1.analysis) (by norm_num) hq c1 c2 h2.inf_mem (side := true) (v := v)
    (by rw [hs, h1.basis, h1.primitive]; exact hv)
  have hpos2 : D2.positions.map (L.struct.basis.translate v) =
      [(fun _ => ((2 : ℤ) : ℝ)), fun _ => ((3 : ℤ) : ℝ)] := by
    rw [c2.positions, hs, h1.basis, List.map_map]
    simp [cellsFrom, List.range_succ]
    constructor <;> funext k <;> rw [chain_translate] <;> simp [hv0]
    norm_num
  have hpos0 : D.positions.getD 0 0 = fun _ => ((0 : ℤ) : ℝ) := by
    rw [c1.positions]; simp [cellsFrom, List.range_succ]
  have hsmall : ∀ {D : LatticeData 1 ℝ} {w : ℕ}, ChainData 2 (cellsFrom 2) w D →
      ∀ y ∈ D.distTable.flatten, y = ⊤ ∨ y ≤ ((1 : ℝ) : WithTop ℝ) := by
    intro D w hD y hy
    rcases hD.mem_table hy with h | ⟨m, -, -, rfl, a, ha, b, hb, hm⟩
    · exact Or.inl h
    · right
      rw [mem_cellsFrom] at ha hb
      have : m ≤ 1 := by omega
      rw [WithTop.coe_le_coe]
      exact_mod_cast this
  have hvals : ∀ y ∈ D.distTable.flatten ++ D2.distTable.flatten,
      y = ⊤ ∨ y ≤ ((1 : ℝ) : WithTop ℝ) := by
    intro y hy
    rcases List.mem_append.1 hy with hy | hy
    · exact hsmall c1 y hy
    · exact hsmall c2 y hy
  have hlw : linksWithin (D.distTable.flatten ++ D2.distTable.flatten) (D.positions.getD 0 0)
      (D2.positions.map (L.struct.basis.translate v)) r 2 = [] := by
    rw [hpos2, hpos0]
    unfold linksWithin
    rw [List.filterMap_eq_nil_iff]
    intro j hj
    apply storedLink_top
    intro y hy
    refine (hvals y hy).imp_right fun h => lt_of_le_of_lt h ?_
    rw [WithTop.coe_lt_coe, distance_one]
    have hj' := List.mem_range.1 (List.mem_filter.1 hj).1
    simp only [List.length_cons, List.length_nil] at hj'
    interval_cases j <;> norm_num [abs_lt]
  obtain ⟨s, s1, -, s3⟩ := e10 0 (by simp [cellsFrom])
  rw [if_pos rfl, show (cellsFrom 2).length = 2 by simp [cellsFrom], hlw] at s1
  have hs0 : s = [] := List.subperm_nil.1 s1
  rw [hs0, List.append_nil] at s3
  obtain ⟨D4', hD4, hp4, hn4⟩ := C68_direct h4
  obtain ⟨⟨l4, g1, -, g3⟩, -⟩ := hn4 0 0 (by simp [cellsFrom])
  obtain ⟨row, hrow⟩ : ∃ row, E.entries[0]? = some row := by
    have : 0 < E.entries.length := by rw [e8.length]; simp [cellsFrom]
    exact ⟨_, List.getElem?_eq_getElem this⟩
  refine ⟨L', E, (E.linksOf 0).map Prod.fst, l4, ?_, e2, ?_, ?_, ?_, g1, (g3 2).2 ⟨2, by simp [cellsFrom], by norm_num,
    by norm_num⟩⟩
  · unfold Lattice.append
    rw [h2.data]
    exact e1
  · rw [e7, if_pos rfl, hpos2, c1.positions, c4.positions]
    simp [cellsFrom, List.range_succ]
  · unfold Lattice.neighbors
    rw [e2]
    exact getNeighbors_linksOf e8.cols hrow
  · intro hmem
    obtain ⟨p, hp, hp2⟩ := List.mem_map.1 hmem
    have h0 := (c1.links 0 0 (by simp [cellsFrom])).mem_iff.1 (s3.mem_iff.1 hp)
    obtain ⟨-, b, hb, -⟩ := mem_chainFrom.1 (show (p.1, p.2) ∈ _ from h0)
    rw [hp2] at hb
    simp [cellsFrom] at hb

/-- There are such chains. -/
example (env : Env ℝ) : ∃ (L L2 L' : Lattice 1 ℝ) (l : List ℕ),
    L.append env L2 0 true none false = (L', .ok ()) ∧ L'.neighbors 0 none false = .ok l ∧
      2 ∉ l := by
  obtain ⟨w, A, h⟩ := exists_isBuiltChains env (nb := 2) (by norm_num) (by norm_num)
  obtain ⟨L, D, table, h1⟩ := h 1 (fun _ => true) (by rw [chainCells_true]; simp)
  obtain ⟨L4, D4, table4, h4⟩ := h 3 (fun _ => true) (by rw [chainCells_true]; simp)
  obtain ⟨L', E, l, l4, e1, -, -, e4, e5, -⟩ := C68_lost_link_fails env h1 h1 h4
  exact ⟨L, L, L', l, e1, e4, e5⟩

/-- C68 fails: `repeat` on the negative side shifts all copies by the same vector, so the second
copy lies on the first. -/
theorem C68_repeat_left_fails (env : Env ℝ) {nb N : ℕ} (hnb : 0 < nb) (h255 : nb ≤ 255)
    (hN : 2 * nb ≤ N) {w : World 1 ℝ} {A : Analysis 1 ℝ} {L : Lattice 1 ℝ} {D : LatticeData 1 ℝ}
    {table : List (List (ℕ × WithTop ℝ))}
    (h : IsBuiltChain env nb N (fun _ => true) w A L D table) :
    ∃ L' E, L.repeat env 2 0 false none false = (L', .ok ()) ∧ L'.data = some E ∧
      E.numSites = 3 * (N + 1) ∧
      ∀ i ≤ N, E.positions[N + 1 + i]? = some (fun _ => (i : ℝ) - (N + 1)) ∧
        E.positions[2 * (N + 1) + i]? = some (fun _ => (i : ℝ) - (N + 1)) := by
  obtain ⟨r, hr⟩ := h.radius hnb
  obtain ⟨width, c1, hw1⟩ := h.full
  have hs := h.struct_eq
  obtain ⟨L1, E1, e1, e2, e3, e4, -, e6⟩ := chain_join env h.data
    (by rw [hs]; exact h.analysis) h255 hr
    (by rw [hs]; exact h.basis) h.primitive c1 c1
    (lt_max_of_lt_right (by omega)) (by rw [max_self]; exact hw1 hN) h.inf_mem false
  obtain ⟨v, hv, hv0⟩ := c1.period_from
  have hs1 : L1.struct = w.struct := by rw [← hs]; unfold Lattice.struct; rw [e3]
  obtain ⟨⟨k, hq⟩, -, -⟩ := hr
  obtain ⟨L2, E2, f1, f2, -, -, -, f6, f7, -⟩ := chain_interface env e2
    (by rw [hs1]; exact h.analysis) h255 hq e6 c1 h.inf_mem (side := false) (v := v)
    (by rw [hs1, h.basis, e4, h.primitive]; exact hv)
  refine ⟨L2, E2, ?_, f2, ?_, ?_⟩
  · unfold Lattice.repeat
    rw [h.data]
    dsimp only
    rw [repeatLoop, e1]
    dsimp only
    rw [set_cleared h.set, repeatLoop, f1]
    rfl
  · unfold LatticeData.numSites
    rw [f6, List.length_append, List.length_map, e6.indices, c1.indices]
    simp [cellsFrom]
    ring
  · intro i hi
    have hl : E1.positions.length = 2 * (N + 1) := by
      rw [e6.positions]; simp [cellsFrom]; ring
    constructor
    · rw [f7, List.getElem?_append_left (by omega), e6.positions, List.map_append,
        List.getElem?_append_right (by simp [cellsFrom])]
      simp [cellsFrom, List.getElem?_range (show i < N + 1 by omega)]
      funext _
      ring
    · rw [f7, List.getElem?_append_right (by omega), hl, Nat.add_sub_cancel_left, c1.positions]
      simp [cellsFrom, List.getElem?_range (show i < N + 1 by omega)]
      funext k
      rw [hs1, h.basis, chain_translate]
      simp [hv0]
      ring

/-- A chain of three sites repeated twice on the negative side: the sites `3` and `6` coincide. -/
example (env : Env ℝ) : ∃ (L L' : Lattice 1 ℝ) (E : LatticeData 1 ℝ),
    L.repeat env 2 0 false none false = (L', .ok ()) ∧ L'.data = some E ∧ E.numSites = 9 ∧
      E.positions[3]? = some (fun _ => (-3 : ℝ)) ∧
      E.positions[6]? = some (fun _ => (-3 : ℝ)) := by
  obtain ⟨w, A, h⟩ := exists_isBuiltChains env (nb := 1) (by norm_num) (by norm_num)
  obtain ⟨L, D, table, h1⟩ := h 2 (fun _ => true) (by rw [chainCells_true]; simp)
  obtain ⟨L', E, e1, e2, e3, e4⟩ := C68_repeat_left_fails env (by norm_num) (by norm_num)
    (by norm_num) h1
  refine ⟨L, L', E, e1, e2, by rw [e3], ?_, ?_⟩
  · have := (e4 0 (by norm_num)).1
    norm_num at this ⊢
    exact this
  · have := (e4 0 (by norm_num)).2
    norm_num at this ⊢
    exact this

end Lattice

end Lattpy

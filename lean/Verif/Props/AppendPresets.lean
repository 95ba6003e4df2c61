import Verif.Props.AppendCells
import Verif.Props.TorusPresets

/-!
# Property C68 for hexagonal lattices and graphene
-/

set_option autoImplicit false
set_option linter.unusedSectionVars false

namespace Lattpy

open Structure World Preset LatticeData Lattpy.Lattice

/-- Blocks of graphene: what is known about the structure and a primitive build. -/
theorem graphene_block (env : Env ℝ) (s : Session) (a : ℝ) (ha : 1 ≤ a) :
    ∃ w, graphene env s a = .ok w ∧ Reachable env w ∧ NearestOnly w a honeySets ∧
      AtDistance w a honeySets ∧ w.struct.numBase = 2 ∧
      ∀ (m : Fin 2 → ℕ) (σ : Vec 2 ℝ) (isInt : Bool), (∀ k, 3 ≤ m k) →
        (∀ k, (m k : ℝ) - 2 / 3 ≤ σ k ∧ σ k < m k - 1 / 1000 ∧ 3 * σ k ≤ 2 * (a * (σ 0 + σ 1))) →
        ∃ L D, (Lattice.ofWorld w).build env (primitiveBox σ isInt) = (L, .ok ()) ∧
          L.data = some D ∧ WholeCells w.struct D 0 m := by
  have ha0 : 0 < a := by linarith
  have ha' : 1 / 10 ^ 5 ≤ |a| := by rw [abs_of_pos ha0]; linarith
  obtain ⟨w, h1, -, h2, h3, h4⟩ := C84_graphene_partial env s a ha'
  obtain ⟨s', ops, hc⟩ := graphene_configure h1
  have hr := configure_reachable hc
  have hv := configure_vectors hc
  have hN := honey_only ha' hr hv h2 h3 h4
  rw [abs_of_pos ha0] at hN
  refine ⟨w, h1, hr, hN, honey_atDistance hv h2, ?_, ?_⟩
  · rw [← (hr.good two_pos).positions_length, h2]; rfl
  · intro m σ isInt hm hσ
    obtain ⟨w', L, D, -, g1, g2, g3, g4, -⟩ :=
      (C111_honeycomb_partial env s a ha .none m σ isInt hm hσ).2
    cases h1.symm.trans g1
    exact ⟨L, D, g2, g3, g4⟩

/-- C68 for graphene: two primitive builds of `m1 0` times `m1 1` and `m2 0` times `m2 1` cells, at
least three in each direction and equally many across the axis, appended along either axis on either
side, are the block of all these cells in which every pair of sites at the distance `a` is a link. -/
theorem C68_graphene_partial (env : Env ℝ) (s : Session) (a : ℝ) (ha : 1 ≤ a)
    (hround : a ≤ npRound 6 a) (m1 m2 : Fin 2 → ℕ) (σ1 σ2 : Vec 2 ℝ) (isInt1 isInt2 : Bool)
    (hm1 : ∀ k, 3 ≤ m1 k) (hm2 : ∀ k, 3 ≤ m2 k)
    (hσ1 : ∀ k, (m1 k : ℝ) - 2 / 3 ≤ σ1 k ∧ σ1 k < m1 k - 1 / 1000 ∧
      3 * σ1 k ≤ 2 * (a * (σ1 0 + σ1 1)))
    (hσ2 : ∀ k, (m2 k : ℝ) - 2 / 3 ≤ σ2 k ∧ σ2 k < m2 k - 1 / 1000 ∧
      3 * σ2 k ≤ 2 * (a * (σ2 0 + σ2 1)))
    (ax : Fin 2) (hax : ∀ k, k ≠ ax → m1 k = m2 k) (side : Bool) :
    ∃ w L1 L2 L' E, graphene env s a = .ok w ∧
      (Lattice.ofWorld w).build env (primitiveBox σ1 isInt1) = (L1, .ok ()) ∧
      (Lattice.ofWorld w).build env (primitiveBox σ2 isInt2) = (L2, .ok ()) ∧
      L1.append env L2 ax.val side none false = (L', .ok ()) ∧
      IsBlock w.struct a (joinLo 0 m2 ax side) (joinSize m1 m2 ax) L' E := by
  obtain ⟨w, h1, hr, hN, -, -, hB⟩ := graphene_block env s a ha
  obtain ⟨L1, D1, g1, g2, g3⟩ := hB m1 σ1 isInt1 hm1 hσ1
  obtain ⟨L2, D2, k1, k2, k3⟩ := hB m2 σ2 isInt2 hm2 hσ2
  obtain ⟨L', E, e1, -, e3⟩ := C68_cells_partial (L := Lattice.ofWorld w) two_pos hr hN
    (nearSteps_planar le_rfl honeySets_steps) hround (a1 := primitiveBox σ1 isInt1)
    (a2 := primitiveBox σ2 isInt2) ⟨rfl, rfl, rfl⟩ ⟨rfl, rfl, rfl⟩ g1 k1 (Or.inl rfl) g2 k2 g3 k3 hax
    (Or.inl (hm1 ax)) side
  exact ⟨w, L1, L2, L', E, h1, g1, k1, e1, e3⟩

theorem npRound_one : npRound 6 (1 : ℝ) = 1 := by
  simpa using npRound_natCast 1

/-- A sheet of 10 × 18 cells and one of 10 × 9 cells make one of 10 × 27 cells. -/
example (env : Env ℝ) (s : Session) : ∃ w L1 L2 L' E, graphene env s 1 = .ok w ∧
    (Lattice.ofWorld w).build env (primitiveBox ![19 / 2, 35 / 2] false) = (L1, .ok ()) ∧
    (Lattice.ofWorld w).build env (primitiveBox ![19 / 2, 17 / 2] false) = (L2, .ok ()) ∧
    L1.append env L2 1 true none false = (L', .ok ()) ∧
    IsBlock w.struct 1 0 ![10, 27] L' E := by
  obtain ⟨w, L1, L2, L', E, h1, h2, h3, h4, h5⟩ := C68_graphene_partial env s 1 le_rfl
    npRound_one.ge ![10, 18] ![10, 9] ![19 / 2, 35 / 2] ![19 / 2, 17 / 2] false false
    (by intro k; fin_cases k <;> simp) (by intro k; fin_cases k <;> simp)
    (by intro k; fin_cases k <;> norm_num) (by intro k; fin_cases k <;> norm_num) 1
    (by intro k hk; fin_cases k <;> simp at hk ⊢) true
  refine ⟨w, L1, L2, L', E, h1, h2, h3, h4, ?_⟩
  have : joinSize ![10, 18] ![10, 9] (1 : Fin 2) = ![10, 27] := by
    unfold joinSize
    funext k
    fin_cases k <;> simp
  rw [this] at h5
  exact h5

/-- Two sheets of 10 × 9 cells have the sites and neighbours of the sheet of 10 × 18 cells. -/
example (env : Env ℝ) (s : Session) : ∃ w L L' E M D, graphene env s 1 = .ok w ∧
    (Lattice.ofWorld w).build env (primitiveBox ![19 / 2, 17 / 2] false) = (L, .ok ()) ∧
    L.append env L 1 true none false = (L', .ok ()) ∧ L'.data = some E ∧
    (Lattice.ofWorld w).build env (primitiveBox ![19 / 2, 35 / 2] false) = (M, .ok ()) ∧
    M.data = some D ∧ SameNeighbors L' E M D := by
  obtain ⟨w, h1, hr, hN, -, -, hB⟩ := graphene_block env s 1 le_rfl
  obtain ⟨w', L1, L2, L', E, h1', h2, h3, h4, h5⟩ := C68_graphene_partial env s 1 le_rfl
    npRound_one.ge ![10, 9] ![10, 9] ![19 / 2, 17 / 2] ![19 / 2, 17 / 2] false false
    (by intro k; fin_cases k <;> simp) (by intro k; fin_cases k <;> simp)
    (by intro k; fin_cases k <;> norm_num) (by intro k; fin_cases k <;> norm_num) 1
    (fun _ _ => rfl) true
  cases h1.symm.trans h1'
  cases h2.symm.trans h3
  obtain ⟨M, D, g1, g2, g3⟩ := hB ![10, 18] ![19 / 2, 35 / 2] false
    (by intro k; fin_cases k <;> simp) (by intro k; fin_cases k <;> norm_num)
  have : joinSize ![10, 9] ![10, 9] (1 : Fin 2) = ![10, 18] := by
    unfold joinSize
    funext k
    fin_cases k <;> simp
  rw [this] at h5
  exact ⟨w, L1, L', E, M, D, h1, h2, h4, h5.1, g1, g2, (C68_block_direct (L := Lattice.ofWorld w)
    two_pos hr hN (nearSteps_planar le_rfl honeySets_steps) (a := primitiveBox ![19 / 2, 35 / 2] false)
    ⟨rfl, rfl, rfl⟩ g1 g2 g3).2 L' E h5⟩

/-- A sheet of 3 × 4 cells, repeated five times along the first axis, has 18 × 4 cells. -/
example (env : Env ℝ) (s : Session) : ∃ w L L' E, graphene env s 1 = .ok w ∧
    (Lattice.ofWorld w).build env (primitiveBox ![5 / 2, 7 / 2] false) = (L, .ok ()) ∧
    L.repeat env 5 0 true none false = (L', .ok ()) ∧ IsBlock w.struct 1 0 ![18, 4] L' E := by
  obtain ⟨w, h1, hr, hN, -, -, hB⟩ := graphene_block env s 1 le_rfl
  obtain ⟨L, D, g1, g2, g3⟩ := hB ![3, 4] ![5 / 2, 7 / 2] false
    (by intro k; fin_cases k <;> simp) (by intro k; fin_cases k <;> norm_num)
  obtain ⟨L', E, e1, -, e3⟩ := C68_cells_repeat_partial (L := Lattice.ofWorld w) two_pos hr hN
    (nearSteps_planar le_rfl honeySets_steps) npRound_one.ge
    (a := primitiveBox ![5 / 2, 7 / 2] false) ⟨rfl, rfl, rfl⟩ g1 (Or.inl rfl) g2 g3 (ax := 0)
    (by simp) 5
  refine ⟨w, L, L', E, h1, g1, e1, ?_⟩
  have : Function.update (![3, 4] : Fin 2 → ℕ) 0 ((5 + 1) * (![3, 4] : Fin 2 → ℕ) 0) = ![18, 4] := by
    funext k
    fin_cases k <;> simp
  rw [this] at e3
  exact e3

/-- C68 fails for distances that are rounded down to six decimals when they are stored, such as
`4 / 3`: `_append` looks up the exact distances of the pairs across the interface (lattice.py
827-832) among the stored ones, finds only infinity, and makes no link.  A sheet of graphene
appended to itself falls into two parts: sites of the two parts at the distance `a` are no
neighbours.  All calls succeed. -/
theorem C68_rounded_fails (env : Env ℝ) (s : Session) (a : ℝ) (ha : 1 ≤ a) (hround : npRound 6 a < a)
    (m : Fin 2 → ℕ) (σ : Vec 2 ℝ) (isInt : Bool) (hm : ∀ k, 3 ≤ m k)
    (hσ : ∀ k, (m k : ℝ) - 2 / 3 ≤ σ k ∧ σ k < m k - 1 / 1000 ∧ 3 * σ k ≤ 2 * (a * (σ 0 + σ 1))) :
    ∃ w L L' E, graphene env s a = .ok w ∧
      (Lattice.ofWorld w).build env (primitiveBox σ isInt) = (L, .ok ()) ∧
      L.append env L 0 true none false = (L', .ok ()) ∧ L'.data = some E ∧
      ∃ (i j : ℕ) (p q : Vec 2 ℝ) (l l' : List ℕ), E.positions[i]? = some p ∧
        E.positions[j]? = some q ∧ distance q p = a ∧ L'.neighbors i none false = .ok l ∧ j ∉ l ∧
        L'.neighbors j none false = .ok l' ∧ i ∉ l' := by
  obtain ⟨w, h1, hr, hN, hAt, hnb, hB⟩ := graphene_block env s a ha
  obtain ⟨L, D, g1, g2, g3⟩ := hB m σ isInt hm hσ
  obtain ⟨L', E, n, e1, e2, e3, e4, e5, e6, e7⟩ := rounded_unlinked (L := Lattice.ofWorld w) two_pos hr hN
    (nearSteps_planar le_rfl honeySets_steps) hround (a1 := primitiveBox σ isInt)
    (a2 := primitiveBox σ isInt) ⟨rfl, rfl, rfl⟩ ⟨rfl, rfl, rfl⟩ g1 g1 (Or.inl rfl) g2 g2 g3 g3 0 true
  have hm0 := hm 0
  have hm1 := hm 1
  have hi : Idx.mk ![(m 0 : ℤ) - 1, 0] 1 ∈ D.indices := by
    rw [g3, Idx.alpha_mk, Idx.cell_mk, hnb]
    refine ⟨by norm_num, fun k => ?_⟩
    fin_cases k
    · simp
      omega
    · simp
      omega
  have hj : Idx.mk ![(0 : ℤ), 0] 0 ∈ D.indices := by
    rw [g3, Idx.alpha_mk, Idx.cell_mk, hnb]
    refine ⟨by norm_num, fun k => ?_⟩
    fin_cases k
    · simp
      omega
    · simp
      omega
  obtain ⟨i, hi⟩ := List.mem_iff_getElem?.1 hi
  obtain ⟨j, hj⟩ := List.mem_iff_getElem?.1 hj
  have hil : i < D.numSites := (List.getElem?_eq_some_iff.1 hi).1
  have hjl : j < D.numSites := (List.getElem?_eq_some_iff.1 hj).1
  have hEi : E.indices[i]? = some (Idx.mk ![(m 0 : ℤ) - 1, 0] 1) := by
    rw [e4, List.getElem?_append_left hil, hi]
  have hEj : E.indices[D.numSites + j]? = some (Idx.mk ![(m 0 : ℤ), 0] 0) := by
    rw [e4, List.getElem?_append_right (show D.indices.length ≤ D.numSites + j from
      Nat.le_add_right _ _)]
    have : D.numSites + j - D.indices.length = j := by
      unfold LatticeData.numSites
      omega
    rw [this, List.getElem?_map, hj, Option.map_some]
    unfold shiftIdx
    rw [Idx.cell_mk, Idx.alpha_mk, e3]
    congr 2
    funext k
    fin_cases k
    · simp
    · simp
  obtain ⟨l, l1, l2⟩ := e6 i hil
  obtain ⟨l', l1', l2'⟩ := e7 (D.numSites + j) (Nat.le_add_right _ _) (by omega)
  have get : ∀ {i : ℕ} {x : Idx 2}, E.indices[i]? = some x → ∃ p, E.positions[i]? = some p ∧
      IsSitePos w.struct x p := by
    intro i x hx
    obtain ⟨i1, f1⟩ := List.getElem?_eq_some_iff.1 hx
    have i2 : i < E.positions.length := by rw [← e5.length_eq]; exact i1
    have := e5.get i1 i2
    simp only [List.get_eq_getElem, f1] at this
    exact ⟨_, List.getElem?_eq_getElem i2, this⟩
  obtain ⟨p, hp, sp⟩ := get hEi
  obtain ⟨q, hq, sq⟩ := get hEj
  refine ⟨w, L, L', E, h1, g1, e1, e2, i, D.numSites + j, p, q, l, l', hp, hq, ?_, l1, ?_, l1', ?_⟩
  · obtain ⟨α, β, ra, rb, c1, c2, c3, c4, c5⟩ := site_distance sp sq
    rw [Idx.alpha_mk] at c1 c2
    have hα : α = 1 := by omega
    have hβ : β = 0 := by omega
    subst hα hβ
    obtain ⟨β, rb', f1, f2, f3⟩ := hAt 1 ra c3 (Idx.mk ![1, 0] 0) (by simp [honeySets])
    rw [Idx.alpha_mk] at f1
    have hβ : β = 0 := by omega
    subst hβ
    cases c4.symm.trans f2
    rw [c5, Idx.cell_mk, Idx.cell_mk]
    rw [Idx.cell_mk] at f3
    have : (![(m 0 : ℤ), 0] - ![(m 0 : ℤ) - 1, 0] : Fin 2 → ℤ) = ![1, 0] := by
      funext k
      fin_cases k <;> simp
    rw [this, f3, Real.sqrt_sq (by linarith)]
  · intro hmem
    have := l2 _ hmem
    omega
  · intro hmem
    have := l2' _ hmem
    omega

/-- The distance `4 / 3` is stored as `1.333333`. -/
theorem npRound_four_thirds : npRound 6 (4 / 3 : ℝ) < 4 / 3 := by
  have h := (abs_le.1 (abs_npRound_sub_le 6 (4 / 3 : ℝ))).2
  unfold npRound at h ⊢
  generalize rint (4 / 3 * 10 ^ 6 : ℝ) = z at h ⊢
  have h1 : (z : ℝ) < 1333334 := by
    norm_num at h
    linarith
  have h2 : z < 1333334 := by exact_mod_cast h1
  have h3 : (z : ℝ) ≤ 1333333 := by exact_mod_cast (by omega : z ≤ 1333333)
  norm_num
  linarith

/-- A graphene sheet of 3 × 3 cells with the distance `4 / 3`, appended to itself. -/
example (env : Env ℝ) (s : Session) : ∃ w L L' E, graphene env s (4 / 3) = .ok w ∧
    (Lattice.ofWorld w).build env (primitiveBox ![5 / 2, 5 / 2] false) = (L, .ok ()) ∧
    L.append env L 0 true none false = (L', .ok ()) ∧ L'.data = some E ∧
    ∃ (i j : ℕ) (p q : Vec 2 ℝ) (l l' : List ℕ), E.positions[i]? = some p ∧
      E.positions[j]? = some q ∧ distance q p = 4 / 3 ∧ L'.neighbors i none false = .ok l ∧ j ∉ l ∧
      L'.neighbors j none false = .ok l' ∧ i ∉ l' :=
  C68_rounded_fails env s (4 / 3) (by norm_num) npRound_four_thirds ![3, 3] ![5 / 2, 5 / 2] false
    (by intro k; fin_cases k <;> simp) (by intro k; fin_cases k <;> norm_num)

end Lattpy

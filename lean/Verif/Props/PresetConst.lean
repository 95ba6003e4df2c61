import Verif.Props.PresetPairs

/-! # Property C85 (lattice constants of the preset lattices) -/

set_option autoImplicit false

namespace Lattpy

open Structure Preset Matrix

variable {d : ℕ}

theorem analyze_basis (env : Env ℝ) (S : Structure d ℝ) : (S.analyze env).1.basis = S.basis := by
  unfold analyze
  split_ifs
  · rfl
  · split
    · rfl
    · split_ifs
      · rfl
      · split
        · rfl
        · split <;> rfl

theorem addConnections_basis (env : Env ℝ) (S : Structure d ℝ) (num : ℕ) (an : Bool) :
    (S.addConnections env num an).1.basis = S.basis := by
  unfold addConnections
  split
  · rfl
  · dsimp only
    split_ifs
    · exact analyze_basis env _
    · rfl

theorem addAtomAt_basis (env : Env ℝ) (S : Structure d ℝ) (p : Vec d ℝ) (at' : Atom) (nb : ℕ) :
    (S.addAtomAt env p at' nb).1.basis = S.basis := by
  unfold addAtomAt
  dsimp only
  split_ifs
  all_goals first | rfl | exact addConnections_basis env _ _ _

theorem call_basis (env : Env ℝ) (w : World d ℝ) (op : World.Op ℝ) :
    (w.call env op).1.struct.basis = w.struct.basis := by
  cases op with
  | addAtom pos atom prim nb =>
    change (w.addAtom env pos atom prim nb).1.struct.basis = _
    unfold World.addAtom
    split
    · rfl
    · split_ifs
      · rfl
      · split
        · exact addAtomAt_basis env _ _ _ _
        · split
          · rfl
          · split
            · rfl
            · exact addAtomAt_basis env _ _ _ _
  | addConnection a1 a2 num an =>
    change (w.struct.addConnection env w.session a1 a2 num an).1.basis = _
    unfold addConnection
    split
    · rfl
    · rfl
    · split
      · rfl
      · dsimp only
        split_ifs
        · exact analyze_basis env _
        · rfl
  | addConnections num an => exact addConnections_basis env _ _ _
  | analyze => exact analyze_basis env _

theorem calls_basis (env : Env ℝ) (ops : List (World.Op ℝ)) (w w' : World d ℝ)
    (h : calls env w ops = .ok w') : w'.struct.basis = w.struct.basis := by
  induction ops generalizing w with
  | nil =>
    rw [calls] at h
    cases h
    rfl
  | cons op ops ih =>
    rw [calls] at h
    have hb := call_basis env w op
    split at h
    · rename_i w1 u hc
      rw [hc] at hb
      exact (ih _ h).trans hb
    · cases h

/-- The vectors of a configured preset are those of its basis. -/
theorem configure_vectors {env : Env ℝ} {s : Session} {rows : Matrix (Fin d) (Fin d) ℝ}
    {ops : List (World.Op ℝ)} {w : World d ℝ}
    (h : configure env s (LatticeBasis.init rows) ops = .ok w) : w.struct.basis.vectors = rows := by
  unfold configure at h
  split at h
  · cases h
  · rename_i b hb
    rw [calls_basis env ops _ _ h]
    exact LatticeBasis.init_vectors hb

theorem smul_one_sq (a : ℝ) (i : Fin d) :
    (a • (1 : Matrix (Fin d) (Fin d) ℝ)) i ⬝ᵥ (a • (1 : Matrix (Fin d) (Fin d) ℝ)) i = a ^ 2 := by
  unfold dotProduct
  rw [Finset.sum_eq_single i (by intro j _ hj; simp [hj.symm]) (by simp)]
  simp [sq]

/-- C85 for the presets with orthogonal vectors: whatever the atoms and the number of neighbour
levels, every basis vector of a lattice returned by `simple_chain`, `alternating_chain`,
`simple_square`, `simple_cubic` or configured by `finite_hypercubic` has the length `|a|`, and those
of `simple_rectangular` have the lengths `|a1|` and `|a2|`. -/
theorem C85_orthogonal_partial (env : Env ℝ) (s : Session) (a a1 a2 x0 : ℝ) (atom atom' : AtomSpec)
    (nb : ℕ) :
    (∀ w, simpleChain env s a atom nb = .ok w → ∀ i,
      w.struct.basis.vectors i ⬝ᵥ w.struct.basis.vectors i = a ^ 2) ∧
    (∀ w, alternatingChain env s a atom atom' x0 nb = .ok w → ∀ i,
      w.struct.basis.vectors i ⬝ᵥ w.struct.basis.vectors i = a ^ 2) ∧
    (∀ w, simpleSquare env s a atom nb = .ok w → ∀ i,
      w.struct.basis.vectors i ⬝ᵥ w.struct.basis.vectors i = a ^ 2) ∧
    (∀ w, simpleCubic env s a atom nb = .ok w → ∀ i,
      w.struct.basis.vectors i ⬝ᵥ w.struct.basis.vectors i = a ^ 2) ∧
    (∀ (d : ℕ) (w : World d ℝ),
      configure env s (LatticeBasis.hypercubic d a) (oneAtom atom nb) = .ok w → ∀ i,
      w.struct.basis.vectors i ⬝ᵥ w.struct.basis.vectors i = a ^ 2) ∧
    ∀ w, simpleRectangular env s a1 a2 atom nb = .ok w →
      w.struct.basis.vectors 0 ⬝ᵥ w.struct.basis.vectors 0 = a1 ^ 2 ∧
      w.struct.basis.vectors 1 ⬝ᵥ w.struct.basis.vectors 1 = a2 ^ 2 := by
  refine ⟨?_, ?_, ?_, ?_, ?_, ?_⟩
  · intro w h i
    rw [configure_vectors h]
    fin_cases i
    simp [dotProduct, sq]
  · intro w h i
    rw [configure_vectors h]
    fin_cases i
    simp [dotProduct, sq]
  · intro w h i
    rw [configure_vectors h]
    exact smul_one_sq a i
  · intro w h i
    rw [configure_vectors h]
    exact smul_one_sq a i
  · intro d w h i
    rw [configure_vectors h]
    exact smul_one_sq a i
  · intro w h
    rw [configure_vectors h]
    simp [dotProduct, Fin.sum_univ_two, sq]

/-- The hypotheses of C85 are met by lattices that are returned. -/
example (env : Env ℝ) (s : Session) : ∃ w, simpleSquare env s 2 (.name "B") 1 = .ok w ∧
    ∀ i, w.struct.basis.vectors i ⬝ᵥ w.struct.basis.vectors i = 2 ^ 2 := by
  obtain ⟨w, h, -⟩ := (C84_cubic_partial env s 2 (by norm_num) (.name "B")).2.1
  exact ⟨w, h, (C85_orthogonal_partial env s 2 1 1 0 (.name "B") .none 1).2.2.1 w h⟩

/-- C85 fails for the other presets, whose docstrings also call `a` the length of the basis vectors:
`simple_hexagonal(a=1)`, `honeycomb(a=1)` and `graphene(a=1)` return lattices with vectors of length
`√3` (`a` is the length of the bonds of the honeycomb), and `nacl_structure(a=1)` one with vectors
of length `1/√2` (`a` is the edge of the cubic cell). -/
theorem C85_oblique_fails (env : Env ℝ) (s : Session) :
    (∃ w, simpleHexagonal env s 1 .none 1 = .ok w ∧ ∀ i,
      w.struct.basis.vectors i ⬝ᵥ w.struct.basis.vectors i = 3) ∧
    (∃ w, honeycomb env s 1 .none = .ok w ∧ ∀ i,
      w.struct.basis.vectors i ⬝ᵥ w.struct.basis.vectors i = 3) ∧
    (∃ w, graphene env s 1 = .ok w ∧ ∀ i,
      w.struct.basis.vectors i ⬝ᵥ w.struct.basis.vectors i = 3) ∧
    ∃ w, naclStructure env s 1 (.name "Na") (.name "Cl") 1 = .ok w ∧ ∀ i,
      w.struct.basis.vectors i ⬝ᵥ w.struct.basis.vectors i = 1 / 2 := by
  have hex : ∀ i, (((1 : ℝ) / 2) • !![3, Real.sqrt 3; 3, -Real.sqrt 3]) i ⬝ᵥ
      (((1 : ℝ) / 2) • !![3, Real.sqrt 3; 3, -Real.sqrt 3]) i = 3 := by
    have h3 : Real.sqrt 3 * Real.sqrt 3 = 3 := Real.mul_self_sqrt (by norm_num)
    intro i
    fin_cases i <;> simp [dotProduct, Fin.sum_univ_two] <;> linear_combination 1 / 4 * h3
  refine ⟨?_, ?_, ?_, ?_⟩
  · obtain ⟨w, h, -⟩ := C84_hexagonal_partial env s 1 (by norm_num) .none
    refine ⟨w, h, ?_⟩
    rw [configure_vectors h]
    exact hex
  · obtain ⟨w, at', h, -⟩ := C84_honeycomb_partial env s 1 (by norm_num) .none
    refine ⟨w, h, ?_⟩
    obtain ⟨s', at1, hc, hl⟩ := create_plain s none (.str "C0")
    have h2 : honeycomb env s 1 .none =
        configure env s' (LatticeBasis.hexagonal 1) (honeycombOps 1 at1) := by
      unfold honeycomb
      dsimp only [honeycombName]
      rw [hc]
      dsimp only
      rw [hl]
    rw [h2] at h
    rw [configure_vectors h]
    exact hex
  · obtain ⟨w, h, -⟩ := C84_graphene_partial env s 1 (by norm_num)
    refine ⟨w, h, ?_⟩
    obtain ⟨s1, at1, hc1, hl1⟩ := create_plain s (some "C1") .none
    obtain ⟨s2, at2, hc2, hl2⟩ := create_plain s1 (some "C2") .none
    have h2 : graphene env s 1 =
        configure env s2 (LatticeBasis.hexagonal 1) (grapheneOps 1 at1 at2) := by
      unfold graphene
      rw [hc1]
      dsimp only
      rw [hc2]
      dsimp only
      rw [hl1, hl2]
    rw [h2] at h
    rw [configure_vectors h]
    exact hex
  · obtain ⟨w, h, -⟩ := C84_nacl_partial env s 1 (by norm_num) (.name "Na") (.name "Cl")
    refine ⟨w, h, ?_⟩
    rw [configure_vectors h]
    intro i
    fin_cases i <;> simp [dotProduct, Fin.sum_univ_three] <;> norm_num

end Lattpy

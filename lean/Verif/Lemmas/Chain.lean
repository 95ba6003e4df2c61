import Verif.Lemmas.Structure

/-! Chains: one-dimensional lattices with lattice constant `a`. -/

set_option autoImplicit false

namespace Lattpy

/-- The rows of the chain with lattice constant `a`. -/
noncomputable def chainRows (a : ℝ) : Matrix (Fin 1) (Fin 1) ℝ := Matrix.of fun _ _ => a

/-- The basis of the chain with lattice constant `a`. -/
noncomputable def chainBasis (a : ℝ) : LatticeBasis 1 ℝ := ⟨chainRows a, chainRows a⁻¹⟩

theorem chain_init_of_ne {a : ℝ} (ha : a ≠ 0) :
    LatticeBasis.init (chainRows a) = .ok (chainBasis a) := by
  have hT : (chainRows a).transpose = chainRows a := by
    ext i j; simp [chainRows]
  unfold LatticeBasis.init
  dsimp only
  rw [hT]
  have hdet : Matrix.det (chainRows a) = a := by
    rw [Matrix.det_fin_one]; simp [chainRows]
  rw [hdet, if_neg ha]
  congr 1
  unfold chainBasis
  congr 1
  have hadj : Matrix.adjugate (chainRows a) = 1 := Matrix.adjugate_subsingleton _
  rw [hadj]
  ext i j
  have : i = j := Subsingleton.elim i j
  subst this
  simp [chainRows]

theorem chain_init {a : ℝ} (ha : 0 < a) :
    LatticeBasis.init (chainRows a) = .ok (chainBasis a) := chain_init_of_ne ha.ne'

theorem chain_vectors (a : ℝ) (i k : Fin 1) : (chainBasis a).vectors i k = a := by
  simp [LatticeBasis.vectors, chainBasis, chainRows]

theorem chain_translate (a : ℝ) (n : Fin 1 → ℤ) (r : Vec 1 ℝ) :
    (chainBasis a).translate n r = fun _ => r 0 + (n 0 : ℝ) * a := by
  funext k
  rw [LatticeBasis.translate_eq]
  have : k = 0 := Subsingleton.elim _ _
  subst this
  simp [chain_vectors]

theorem norm2_one (v : Vec 1 ℝ) : norm2 v = |v 0| := by
  unfold norm2
  rw [hasSqrt_real]
  simp [Real.sqrt_mul_self_eq_abs]

theorem distance_one (v w : Vec 1 ℝ) : distance v w = |v 0 - w 0| := by
  unfold distance
  simp [hasSqrt_real, Real.sqrt_mul_self_eq_abs]

theorem chain_norm {a : ℝ} (ha : 0 < a) (n : Fin 1 → ℤ) :
    norm2 ((chainBasis a).translate n 0) = ((n 0).natAbs : ℝ) * a := by
  rw [norm2_one, chain_translate]
  simp [abs_mul, abs_of_pos ha, Nat.cast_natAbs]

theorem chain_levels {a : ℝ} (ha : 0 < a) (D : ℕ) :
    npUnique ((LatticeBasis.factors 1 D).map fun n => norm2 ((chainBasis a).translate n 0)) =
      (List.range (D + 2)).map fun j : ℕ => (j : ℝ) * a := by
  refine npUnique_eq ?_ ?_
  · rw [List.pairwise_map]
    refine List.pairwise_lt_range.imp ?_
    intro i j hij
    exact mul_lt_mul_of_pos_right (by exact_mod_cast hij) ha
  · intro x
    simp only [List.mem_map, List.mem_range]
    constructor
    · rintro ⟨j, hj, rfl⟩
      refine ⟨fun _ => (j : ℤ), ?_, ?_⟩
      · rw [LatticeBasis.mem_factors]
        intro _
        simp; omega
      · rw [chain_norm ha]
        simp
    · rintro ⟨n, hn, rfl⟩
      rw [LatticeBasis.mem_factors] at hn
      have := hn 0
      rw [Int.abs_eq_natAbs] at this
      refine ⟨(n 0).natAbs, by omega, ?_⟩
      rw [chain_norm ha]

theorem chain_norms {a : ℝ} (ha : 0 < a) : (chainBasis a).norms = [a] := by
  unfold LatticeBasis.norms
  have : List.finRange 1 = [0] := rfl
  rw [this]
  simp [norm2_one, chain_vectors, abs_of_pos ha]

/-- The searched cells of a chain. -/
theorem chain_cells {a : ℝ} (ha : 0 < a) (D : ℕ) (cells : List (Fin 1 → ℤ))
    (h : (chainBasis a).getNeighborCells D true (fun x y => decide (x ≤ y)) = .ok cells) :
    cells.Nodup ∧ ∀ n, n ∈ cells ↔ |n 0| ≤ (D : ℤ) + 1 := by
  obtain ⟨maxdist, h1, hnd, h0, hmem⟩ := (chainBasis a).neighborCells_spec _ _ _ _ h
  refine ⟨hnd, ?_⟩
  rw [chain_levels ha, chain_norms ha] at h1
  have h2 : (npUnique [a]).length = 1 := by simp [npUnique]
  rw [h2, List.getElem?_map, List.getElem?_range (by omega)] at h1
  simp only [Option.map_some, Option.some.injEq] at h1
  intro n
  by_cases hn : n = 0
  · subst hn
    simp only [Pi.zero_apply, abs_zero]
    constructor
    · intro _; omega
    · intro _; exact h0.2 rfl
  · rw [hmem n hn, chain_norm ha, ← h1]
    constructor
    · rintro ⟨h3, -⟩; exact h3 0
    · intro h3
      refine ⟨fun k => by rw [Subsingleton.elim k 0]; exact h3, ?_⟩
      simp only [decide_eq_true_eq]
      refine mul_le_mul_of_nonneg_right ?_ ha.le
      have : (n 0).natAbs ≤ D + 1 := by
        rw [Int.abs_eq_natAbs] at h3; omega
      exact_mod_cast this

end Lattpy

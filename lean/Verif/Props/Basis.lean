import Verif.Lemmas.Reciprocal
import Mathlib.LinearAlgebra.Matrix.ToLin

/-! # Properties C01 – C03, C06 – C10 (`basis.py`) -/

set_option autoImplicit false

namespace Lattpy

open Matrix LatticeBasis

section
variable {K : Type*} [Field K] [LinearOrder K] {d : ℕ}

/-! ## C01 coordinates -/

/-- C01: constructing the basis succeeds exactly for linearly independent vectors and fails
with `LinAlgError` otherwise; the vectors read back unchanged. -/
theorem C01_construction (rows : Matrix (Fin d) (Fin d) K) :
    ((∃ b, LatticeBasis.init rows = .ok b) ↔ LinearIndependent K (fun i => rows i)) ∧
    (¬ LinearIndependent K (fun i => rows i) → LatticeBasis.init rows = .error .linalg) ∧
    ∀ b, LatticeBasis.init rows = .ok b → b.vectors = rows := by
  have h : LinearIndependent K (fun i => rows i) ↔ rows.det ≠ 0 := by
    rw [show (fun i => rows i) = rows.row from rfl, Matrix.linearIndependent_rows_iff_isUnit,
      Matrix.isUnit_iff_isUnit_det, isUnit_iff_ne_zero]
  refine ⟨by rw [h, init_eq_ok_iff], ?_, fun b hb => init_vectors hb⟩
  rw [h, not_not]
  exact (init_error_iff rows).2

/-- C01: world and basis coordinates convert back and forth without loss, and the `i`-th basis
vector has basis coordinates `e_i`. -/
theorem C01_coordinate_round_trip (rows : Matrix (Fin d) (Fin d) K) (b : LatticeBasis d K)
    (hb : LatticeBasis.init rows = .ok b) :
    (∀ x, b.transform (b.itransform x) = x) ∧ (∀ x, b.itransform (b.transform x) = x) ∧
    (∀ i, b.itransform (rows i) = Pi.single i 1) ∧ (∀ i, b.transform (Pi.single i 1) = rows i) := by
  have h4 : ∀ i, b.transform (Pi.single i 1) = rows i := by
    intro i
    rw [transform, (init_ok hb).1, mulVec_single_one]
    rfl
  refine ⟨transform_itransform hb, itransform_transform hb, ?_, h4⟩
  intro i
  rw [← h4 i, itransform_transform hb]

/-! ## C02 translation -/

/-- C02: `translate n r` is `r + ∑ n_i a_i`, `a_i` the vectors as given to the constructor;
translating by zero does nothing, and translations compose additively. -/
theorem C02_translate_action (rows : Matrix (Fin d) (Fin d) K) (b : LatticeBasis d K)
    (hb : LatticeBasis.init rows = .ok b) (n m : Fin d → ℤ) (r : Vec d K) :
    (b.translate n r = fun k => r k + ∑ i, (n i : K) * rows i k) ∧
    b.translate 0 r = r ∧ b.translate m (b.translate n r) = b.translate (n + m) r := by
  have h := fun n r => translate_eq b n r
  rw [init_vectors hb] at h
  refine ⟨h n r, ?_, ?_⟩
  · rw [h]; simp
  · rw [h, h, h]
    funext k
    simp only [Pi.add_apply, Int.cast_add, add_mul, Finset.sum_add_distrib]
    ring

/-! ## C03 decomposition into cell and position -/

variable [FloorRing K] [IsStrictOrderedRing K]

/-- C03: `itranslate x` is a pair `(n, r)` with `x = translate n r` and `r` in the home cell
(basis coordinates in `[0, 1)`); any other such pair is equal to it. -/
theorem C03_itranslate (rows : Matrix (Fin d) (Fin d) K) (b : LatticeBasis d K)
    (hb : LatticeBasis.init rows = .ok b) (x : Vec d K) :
    (x = b.translate (b.itranslate x).1 (b.itranslate x).2 ∧
      ∀ i, 0 ≤ b.itransform (b.itranslate x).2 i ∧ b.itransform (b.itranslate x).2 i < 1) ∧
    ∀ n r, x = b.translate n r → (∀ i, 0 ≤ b.itransform r i ∧ b.itransform r i < 1) →
      b.itranslate x = (n, r) := by
  have hrem : x = b.translate (b.itranslate x).1 (b.itranslate x).2 := by
    simp [itranslate, translate]
  have hfrac : ∀ i, b.itransform (b.itranslate x).2 i = Int.fract (b.itransform x i) := by
    intro i
    have h1 := itransform_translate hb (b.itranslate x).1 (b.itranslate x).2
    rw [← hrem] at h1
    have h2 := congrFun h1 i
    simp only [Pi.add_apply] at h2
    rw [Int.fract, h2]
    simp only [itranslate] at h2 ⊢
    rw [← h2]; linarith
  refine ⟨⟨hrem, fun i => ?_⟩, ?_⟩
  · rw [hfrac]; exact ⟨Int.fract_nonneg _, Int.fract_lt_one _⟩
  · intro n r hx hr
    have h1 : b.itransform x = b.itransform r + fun i => (n i : K) := by
      rw [hx]; exact itransform_translate hb n r
    have hn : (fun i => ⌊b.itransform x i⌋) = n := by
      funext i
      rw [h1, Pi.add_apply, Int.floor_add_intCast, Int.floor_eq_zero_iff.2 (hr i), zero_add]
    have : (b.itranslate x).1 = n := hn
    refine Prod.ext this ?_
    show x - b.translate (fun i => ⌊b.itransform x i⌋) 0 = r
    rw [hn, hx]
    simp [translate]

/-- C03: `itranslate` inverts `translate` exactly for positions in the home cell. -/
theorem C03_itranslate_translate (rows : Matrix (Fin d) (Fin d) K) (b : LatticeBasis d K)
    (hb : LatticeBasis.init rows = .ok b) (n : Fin d → ℤ) (r : Vec d K) :
    b.itranslate (b.translate n r) = (n, r) ↔
      ∀ i, 0 ≤ b.itransform r i ∧ b.itransform r i < 1 := by
  obtain ⟨⟨h1, h2⟩, h3⟩ := C03_itranslate rows b hb (b.translate n r)
  constructor
  · intro h
    rw [h] at h2
    exact h2
  · exact h3 n r rfl

end

example : ∃ b, LatticeBasis.init (!![1, 0; 1/2, 2] : Matrix (Fin 2) (Fin 2) ℚ) = .ok b ∧
    b.itranslate ![-1, -1] = (![-1, -1], ![1/2, 1]) := by
  refine ⟨_, if_neg (by decide +kernel), ?_⟩
  decide +kernel

/-! ## C06, C07 reciprocal vectors -/

/-- C06: in one, two and three dimensions and for every tolerance `0 ≤ tol < 4π`, with or
without the check, the reciprocal vectors exist and are dual to the basis. -/
theorem C06_reciprocal_dual {d : ℕ} (hd : 1 ≤ d ∧ d ≤ 3) (rows : Matrix (Fin d) (Fin d) ℝ)
    (b : LatticeBasis d ℝ) (hb : LatticeBasis.init rows = .ok b) (tol : ℝ) (h0 : 0 ≤ tol)
    (h1 : tol < 4 * Real.pi) (check : Bool) :
    ∃ R, b.reciprocalVectors tol check = .ok R ∧
      ∀ i j, rows i ⬝ᵥ R j = if i = j then 2 * Real.pi else 0 := by
  have hv : b.vectors = rows := init_vectors hb
  have hdet : rows.det ≠ 0 := (init_eq_ok_iff rows).1 ⟨b, hb⟩
  obtain rfl | rfl | rfl : d = 1 ∨ d = 2 ∨ d = 3 := by omega
  · refine ⟨_, by rw [reciprocalVectors, if_pos rfl], ?_⟩
    intro i j
    have hi : i = 0 := Subsingleton.elim _ _
    have hj : j = 0 := Subsingleton.elim _ _
    subst hi hj
    have h00 : rows 0 0 ≠ 0 := by simpa using hdet
    simp [dotProduct, hv]
    field_simp
  · exact reciprocal_of_dual rows b hv hdet (by norm_num) (by norm_num) (rvecs0_dual2 rows b hv)
      tol h0 h1 check
  · exact reciprocal_of_dual rows b hv hdet (by norm_num) (by norm_num) (rvecs0_dual3 rows b hv)
      tol h0 h1 check

/-- C06: without the check no tolerance makes the call raise; more than three dimensions are
rejected. -/
theorem C06_unchecked {d : ℕ} (b : LatticeBasis d ℝ) (tol : ℝ) (check : Bool) :
    (d ≤ 3 → ∃ R, b.reciprocalVectors tol false = .ok R) ∧
    (3 < d → b.reciprocalVectors tol check = .error .value) := by
  constructor
  · intro hd
    unfold reciprocalVectors
    by_cases h1 : d = 1
    · exact ⟨_, if_pos h1⟩
    · rw [if_neg h1, if_neg (by omega)]
      dsimp only
      rw [if_neg (by simp)]
      exact ⟨_, rfl⟩
  · intro hd
    unfold reciprocalVectors
    rw [if_neg (by omega), if_pos hd]

example : ∃ R, (LatticeBasis.mk 1 1 : LatticeBasis 2 ℝ).reciprocalVectors (-1) false = .ok R :=
  (C06_unchecked _ _ true).1 (by norm_num)

/-- C06: also for the tolerances passed on by `reciprocal_lattice` and `brillouin_zone`. -/
theorem C06_reciprocal_lattice {d : ℕ} (hd : 1 ≤ d ∧ d ≤ 3) (rows : Matrix (Fin d) (Fin d) ℝ)
    (b : LatticeBasis d ℝ) (hb : LatticeBasis.init rows = .ok b) (minNegative : Bool) :
    ∃ rb, b.reciprocalLattice minNegative = .ok rb ∧
      ∀ i j, rows i ⬝ᵥ rb.vectors j = if i = j then 2 * Real.pi else 0 := by
  obtain ⟨R, h1, h2⟩ := C06_reciprocal_dual hd rows b hb (if minNegative then 1 else 0)
    (by split_ifs <;> norm_num)
    (by have := Real.two_le_pi; split_ifs <;> linarith) false
  have hm : rows * Rᵀ = (2 * Real.pi) • (1 : Matrix (Fin d) (Fin d) ℝ) := dual_matrix h2
  have hR : R.det ≠ 0 := by
    intro hc
    have h3 := congrArg Matrix.det hm
    rw [det_mul, det_transpose, hc, mul_zero, det_smul, det_one, mul_one] at h3
    have := Real.pi_pos
    exact absurd h3.symm (pow_ne_zero _ (by positivity))
  obtain ⟨rb, hrb⟩ := (init_eq_ok_iff R).2 hR
  refine ⟨rb, by simp [reciprocalLattice, h1, hrb], ?_⟩
  rw [init_vectors hrb]
  exact h2

/-- C07: the reciprocal lattice of the reciprocal lattice is the lattice. -/
theorem C07_reciprocal_involutive {d : ℕ} (hd : 1 ≤ d ∧ d ≤ 3) (rows : Matrix (Fin d) (Fin d) ℝ)
    (b : LatticeBasis d ℝ) (hb : LatticeBasis.init rows = .ok b) (m1 m2 : Bool) :
    ∃ rb rrb, b.reciprocalLattice m1 = .ok rb ∧ rb.reciprocalLattice m2 = .ok rrb ∧
      rrb.vectors = rows := by
  obtain ⟨rb, h1, h2⟩ := C06_reciprocal_lattice hd rows b hb m1
  obtain ⟨R, hR⟩ : ∃ R, LatticeBasis.init R = .ok rb := by
    unfold reciprocalLattice at h1
    split at h1
    · exact ⟨_, h1⟩
    · cases h1
  obtain ⟨rrb, g1, g2⟩ := C06_reciprocal_lattice hd R rb hR m2
  refine ⟨rb, rrb, h1, g1, ?_⟩
  rw [← init_vectors hR] at g2
  have e1 := dual_matrix h2
  have e2 := dual_matrix g2
  -- rows * Rᵀ = 2π and R * Sᵀ = 2π, hence S = rows
  have hpi : (2 * Real.pi) ≠ 0 := by have := Real.pi_pos; positivity
  have e3 : rrb.vectors * rb.vectorsᵀ = (2 * Real.pi) • 1 := by
    have := congrArg Matrix.transpose e2
    rw [transpose_mul, transpose_transpose, transpose_smul, transpose_one] at this
    exact this
  have e4 : rb.vectorsᵀ * rows = (2 * Real.pi) • 1 := by
    have h5 : ((2 * Real.pi)⁻¹ • rows) * rb.vectorsᵀ = 1 := by
      rw [smul_mul_assoc, e1, smul_smul, inv_mul_cancel₀ hpi, one_smul]
    have h6 := mul_eq_one_comm.1 h5
    rw [mul_smul_comm] at h6
    rw [← h6, smul_smul, mul_inv_cancel₀ hpi, one_smul]
  have h7 : (2 * Real.pi) • rrb.vectors = (2 * Real.pi) • rows := by
    calc (2 * Real.pi) • rrb.vectors = rrb.vectors * ((2 * Real.pi) • 1) := by simp
      _ = rrb.vectors * (rb.vectorsᵀ * rows) := by rw [e4]
      _ = (rrb.vectors * rb.vectorsᵀ) * rows := by rw [Matrix.mul_assoc]
      _ = (2 * Real.pi) • rows := by rw [e3]; simp
  exact smul_right_injective _ hpi h7

example : 1 ≤ 2 ∧ (!![1, 0; 1/2, -2] : Matrix (Fin 2) (Fin 2) ℝ).det ≠ 0 := by
  norm_num [det_fin_two]

/-! ## C08 is_reciprocal -/

/-- C08, what is actually decided: only the products of equally numbered vectors are compared,
as far as both lists go. -/
theorem C08_is_reciprocal_diagonal_partial {d : ℕ} (b : LatticeBasis d ℝ) (vecs : Fin d → Vec d ℝ)
    (tol : ℝ) :
    b.isReciprocal (List.ofFn vecs) tol = true ↔
      ∀ i, |b.vectors i ⬝ᵥ vecs i - 2 * Real.pi| ≤ tol := by
  have h : ((List.finRange d).map fun i => b.vectors i).zip (List.ofFn vecs) =
      (List.finRange d).map fun i => (b.vectors i, vecs i) := by
    rw [List.ofFn_eq_map, List.zip_map']
  rw [isReciprocal, h, List.all_map, List.all_eq_true]
  simp

/-- C08, one direction: dual vectors are accepted. -/
theorem C08_is_reciprocal_complete_partial {d : ℕ} (b : LatticeBasis d ℝ) (vecs : Fin d → Vec d ℝ)
    (tol : ℝ) (h0 : 0 ≤ tol)
    (hdual : ∀ i j, b.vectors i ⬝ᵥ vecs j = if i = j then 2 * Real.pi else 0) :
    b.isReciprocal (List.ofFn vecs) tol = true := by
  rw [C08_is_reciprocal_diagonal_partial]
  intro i
  rw [hdual]; simpa using h0

/-- C08 fails: for the square lattice the vectors `(2π, 5)`, `(0, 2π)` are accepted even with
tolerance zero, although `a_2 ⬝ b_1 = 5`. -/
theorem C08_is_reciprocal_fails :
    ∃ b : LatticeBasis 2 ℝ, LatticeBasis.init 1 = .ok b ∧
      b.isReciprocal [![2 * Real.pi, 5], ![0, 2 * Real.pi]] 0 = true ∧
      b.vectors 1 ⬝ᵥ ![2 * Real.pi, 5] = 5 := by
  obtain ⟨b, hb⟩ := (init_eq_ok_iff (1 : Matrix (Fin 2) (Fin 2) ℝ)).2 (by simp)
  refine ⟨b, hb, ?_, ?_⟩
  · have := C08_is_reciprocal_diagonal_partial b ![![2 * Real.pi, 5], ![0, 2 * Real.pi]] 0
    rw [show [![2 * Real.pi, 5], ![0, 2 * Real.pi]] =
      List.ofFn ![![2 * Real.pi, 5], ![0, 2 * Real.pi]] by simp, this, init_vectors hb]
    rw [Fin.forall_fin_two]
    constructor <;> simp [dotProduct, Fin.sum_univ_two]
  · rw [init_vectors hb]
    simp [dotProduct, Fin.sum_univ_two]

/-! ## C09 cell indices -/

/-- C09: the super-index of a cell inside a box of positive shape is in `0..prod(shape)-1`, and
`get_cell_index` recovers the cell. -/
theorem C09_superindex_then_index (index shape : List ℤ) (hs : shape ≠ [])
    (h : List.Forall₂ (fun i a => 0 ≤ i ∧ i < a) index shape) :
    0 ≤ getCellSuperindex index shape ∧ getCellSuperindex index shape < shape.prod ∧
      getCellIndex (getCellSuperindex index shape) shape = index :=
  ⟨(superindex_bounds h).1, (superindex_bounds h).2, cellIndex_superindex hs h⟩

/-- C09: conversely, any integer converted to a cell index and back is unchanged, and super-
indices in `0..prod(shape)-1` give cells inside the box. -/
theorem C09_index_then_superindex (shape : List ℤ) (hs : shape ≠ []) (hpos : ∀ a ∈ shape, 0 < a)
    (x : ℤ) :
    getCellSuperindex (getCellIndex x shape) shape = x ∧
    (getCellIndex x shape).length = shape.length ∧
    (0 ≤ x → x < shape.prod →
      List.Forall₂ (fun i a => 0 ≤ i ∧ i < a) (getCellIndex x shape) shape) :=
  superindex_cellIndex hs hpos x

/-- C09: the numbering is the lexicographic order of the cells. -/
theorem C09_superindex_monotone (index index' shape : List ℤ)
    (h : List.Forall₂ (fun i a => 0 ≤ i ∧ i < a) index shape)
    (h' : List.Forall₂ (fun i a => 0 ≤ i ∧ i < a) index' shape) :
    getCellSuperindex index shape < getCellSuperindex index' shape ↔ index < index' := by
  constructor
  · intro hlt
    rcases lt_trichotomy index index' with hc | hc | hc
    · exact hc
    · rw [hc] at hlt; exact absurd hlt (lt_irrefl _)
    · exact absurd (superindex_lex h' h hc) (not_lt.2 hlt.le)
  · exact superindex_lex h h'

example : List.Forall₂ (fun i a : ℤ => 0 ≤ i ∧ i < a) [1, 0, 3] [2, 3, 4] := by
  repeat constructor
example : getCellSuperindex [1, 0, 3] [2, 3, 4] = 15 ∧ getCellIndex (-1) [2, 3, 4] = [-1, 2, 3] := by
  decide

/-! ## C10 neighbouring cells -/

/-- C10, structure of the result (for every distance level and every comparison): no cell is
listed twice, the origin is included iff requested, the result is symmetric under inversion,
and the non-zero cells are those searched factors whose distance compares equal to one common
distance of the searched cells. -/
theorem C10_neighbor_cells_structure_partial {d : ℕ} (b : LatticeBasis d ℝ) (distidx : ℕ)
    (includeOrigin : Bool) (cmp : ℝ → ℝ → Bool) (r : List (Fin d → ℤ))
    (h : b.getNeighborCells distidx includeOrigin cmp = .ok r) :
    r.Nodup ∧ (0 ∈ r ↔ includeOrigin = true) ∧ (∀ n, n ∈ r ↔ -n ∈ r) ∧
    ∃ n0 : Fin d → ℤ, (∀ k, |n0 k| ≤ (distidx : ℤ) + 1) ∧ ∀ n, n ≠ 0 → (n ∈ r ↔
      (∀ k, |n k| ≤ (distidx : ℤ) + 1) ∧
      cmp (norm2 (b.translate n 0)) (norm2 (b.translate n0 0)) = true) := by
  obtain ⟨maxdist, h1, h2, h3, h4⟩ := neighborCells_spec b distidx includeOrigin cmp r h
  obtain ⟨n0, hn0, hmax⟩ : ∃ n0 ∈ factors d distidx, norm2 (b.translate n0 0) = maxdist := by
    have := List.mem_of_getElem? h1
    rw [mem_npUnique] at this
    simpa using this
  refine ⟨h2, h3, ?_, n0, (mem_factors d distidx n0).1 hn0, ?_⟩
  · intro n
    by_cases hn : n = 0
    · simp [hn]
    · rw [h4 n hn, h4 (-n) (by simpa using hn), norm2_translate_neg]
      simp
  · intro n hn
    rw [h4 n hn, hmax]

/-- C10, restricted to the nearest level and bases whose vectors have equal length: the
non-zero cells returned are the searched ones whose distance compares equal (by default
`np.isclose`) to the smallest distance of any non-zero searched cell. -/
theorem C10_neighbor_cells_nearest_partial {d : ℕ} (hd : 1 ≤ d) (rows : Matrix (Fin d) (Fin d) ℝ)
    (b : LatticeBasis d ℝ) (hb : LatticeBasis.init rows = .ok b)
    (heq : ∀ i j, norm2 (rows i) = norm2 (rows j)) (includeOrigin : Bool)
    (cmp : ℝ → ℝ → Bool) :
    ∃ r m, b.getNeighborCells 0 includeOrigin cmp = .ok r ∧
      IsLeast {x | ∃ n : Fin d → ℤ, n ≠ 0 ∧ (∀ k, |n k| ≤ 1) ∧ x = norm2 (b.translate n 0)} m ∧
      ∀ n, n ≠ 0 → (n ∈ r ↔ (∀ k, |n k| ≤ 1) ∧ cmp (norm2 (b.translate n 0)) m = true) := by
  have hlen : (npUnique b.norms).length = 1 := by
    have : npUnique b.norms = [norm2 (rows ⟨0, hd⟩)] := by
      apply npUnique_eq (by simp)
      intro x
      simp only [List.mem_singleton, norms, List.mem_map, List.mem_finRange, true_and,
        init_vectors hb]
      constructor
      · rintro rfl; exact ⟨_, rfl⟩
      · rintro ⟨i, rfl⟩; exact heq _ _
    rw [this]; rfl
  set L := npUnique ((factors d 0).map fun n => norm2 (b.translate n 0)) with hL
  have hmemL : ∀ x, x ∈ L ↔ ∃ n : Fin d → ℤ, (∀ k, |n k| ≤ 1) ∧ x = norm2 (b.translate n 0) := by
    intro x
    rw [hL, mem_npUnique]
    simp only [List.mem_map, mem_factors]
    constructor
    · rintro ⟨n, h1, rfl⟩; exact ⟨n, by simpa using h1, rfl⟩
    · rintro ⟨n, h1, rfl⟩; exact ⟨n, by simpa using h1, rfl⟩
  have hzero : ∀ n : Fin d → ℤ, norm2 (b.translate n 0) = 0 ↔ n = 0 :=
    fun n => norm2_translate_eq_zero hb n
  have hnn : ∀ x ∈ L, 0 ≤ x := by
    intro x hx
    obtain ⟨n, -, rfl⟩ := (hmemL x).1 hx
    rw [norm2_eq_norm]; exact norm_nonneg _
  have h0L : (0 : ℝ) ∈ L := (hmemL 0).2 ⟨0, by simp, ((hzero 0).2 rfl).symm⟩
  have hsort : L.Pairwise (· < ·) := npUnique_pairwise_lt _
  -- split the first two levels
  obtain ⟨e, he⟩ : ∃ e : Fin d → ℤ, e ≠ 0 ∧ ∀ k, |e k| ≤ 1 := by
    refine ⟨fun _ => 1, fun h => ?_, fun _ => by simp⟩
    have := congrFun h ⟨0, hd⟩
    simp at this
  have heL : norm2 (b.translate e 0) ∈ L := (hmemL _).2 ⟨e, he.2, rfl⟩
  have hene : norm2 (b.translate e 0) ≠ 0 := fun h => he.1 ((hzero e).1 h)
  obtain ⟨m, hm1, hm2⟩ : ∃ m, L[1]? = some m ∧ m ≠ 0 ∧ m ∈ L ∧ ∀ x ∈ L, x ≠ 0 → m ≤ x :=
    second_level hsort hnn h0L heL hene
  refine ⟨_, m, by
    rw [getNeighborCells]
    simp only [hlen, zero_add, ← hL, hm1]
    rfl, ?_, ?_⟩
  · obtain ⟨n, h1, h2⟩ := (hmemL m).1 hm2.2.1
    refine ⟨⟨n, fun h => hm2.1 (by rw [h2]; exact (hzero n).2 h), h1, h2⟩, ?_⟩
    rintro x ⟨n', g1, g2, rfl⟩
    exact hm2.2.2 _ ((hmemL _).2 ⟨n', g2, rfl⟩) fun h => g1 ((hzero n').1 h)
  · intro n hn
    have := neighborSel_mem b 0 includeOrigin cmp m n hn
    rw [this, mem_factors]
    simp

example : ∀ i j, norm2 ((1 : Matrix (Fin 2) (Fin 2) ℝ) i) = norm2 ((1 : Matrix (Fin 2) (Fin 2) ℝ) j) := by
  simp [Fin.forall_fin_two, norm2, Fin.sum_univ_two]

/-- C10 fails for the rectangular lattice with vectors `(2, 0)` and `(0, 1)`: the cells at
distance 2 are returned, the nearest cells `(0, ±1)` at distance 1 are not. -/
theorem C10_neighbor_cells_fails :
    ∃ b : LatticeBasis 2 ℝ, LatticeBasis.init !![2, 0; 0, 1] = .ok b ∧
    ∃ r, b.getNeighborCells 0 false isclose = .ok r ∧ ![1, 0] ∈ r ∧ ![0, 1] ∉ r ∧
      norm2 (b.translate ![0, 1] 0) = 1 ∧ norm2 (b.translate ![1, 0] 0) = 2 := by
  obtain ⟨b, hb⟩ := (init_eq_ok_iff (!![2, 0; 0, 1] : Matrix (Fin 2) (Fin 2) ℝ)).2
    (by norm_num [det_fin_two])
  have hn : ∀ n : Fin 2 → ℤ, norm2 (b.translate n 0) = Real.sqrt (4 * n 0 ^ 2 + n 1 ^ 2) := by
    intro n
    rw [translate_eq, init_vectors hb, norm2, hasSqrt_real]
    congr 1
    simp [Fin.sum_univ_two]
    ring
  have s4 : Real.sqrt 4 = 2 := by
    rw [show (4 : ℝ) = 2 ^ 2 by norm_num, Real.sqrt_sq (by norm_num)]
  have h01 : norm2 (b.translate ![0, 1] 0) = 1 := by rw [hn]; simp
  have h10 : norm2 (b.translate ![1, 0] 0) = 2 := by rw [hn]; simp [s4]
  have hnorms : npUnique b.norms = [1, 2] := by
    apply npUnique_eq (by norm_num)
    intro x
    have e1 : norm2 (b.vectors 0) = 2 := by
      rw [init_vectors hb]; simp [norm2, hasSqrt_real, Fin.sum_univ_two]
    have e2 : norm2 (b.vectors 1) = 1 := by
      rw [init_vectors hb]; simp [norm2, hasSqrt_real, Fin.sum_univ_two]
    simp [norms, List.finRange_succ, e1, e2]
    tauto
  have hL : npUnique ((factors 2 0).map fun n => norm2 (b.translate n 0)) =
      [0, 1, 2, Real.sqrt 5] := by
    have h5 : (2 : ℝ) < Real.sqrt 5 := by
      rw [Real.lt_sqrt (by norm_num)]; norm_num
    apply npUnique_eq
    · simp [h5]; linarith
    · intro x
      have hf : factors 2 0 = [![-1, -1], ![-1, 0], ![-1, 1], ![0, -1], ![0, 0], ![0, 1],
        ![1, -1], ![1, 0], ![1, 1]] := by decide +kernel
      rw [hf]
      simp only [hn, List.map_cons, List.map_nil]
      norm_num [s4]
      tauto
  refine ⟨b, hb, ?_⟩
  have hidx : (npUnique ((factors 2 0).map fun n => norm2 (b.translate n 0)))[
      0 + (npUnique b.norms).length]? = some 2 := by rw [hL, hnorms]; rfl
  refine ⟨_, by rw [getNeighborCells]; simp only [hidx]; rfl, ?_, ?_, h01, h10⟩
  · rw [neighborSel_mem b 0 false isclose 2 _ (by decide), h10]
    exact ⟨by decide +kernel, by simp [isclose]; norm_num⟩
  · rw [neighborSel_mem b 0 false isclose 2 _ (by decide), h01]
    rintro ⟨-, h⟩
    simp [isclose] at h
    norm_num at h

end Lattpy

import Verif.Lemmas.Basis
import Verif.Props.Spatial

/-! The candidate reciprocal vectors are dual up to sign. -/

set_option autoImplicit false
namespace Lattpy
open Matrix LatticeBasis

theorem LatticeBasis.rvecs0_dual2 (rows : Matrix (Fin 2) (Fin 2) ℝ) (b : LatticeBasis 2 ℝ)
    (hb : b.vectors = rows) (i j : Fin 2) : rows i ⬝ᵥ b.rvecs0 j =
      if i = j then 2 * Real.pi / |rows.det| * rows.det else 0 := by
  have hv : b.cellVolume = |rows.det| := by
    rw [LatticeBasis.cellVolume, hb, C04_cell_volume_eq_det (by norm_num)]
  have hV : ∀ i j, b.V i j = rows j i := by intro i j; rw [← hb]; rfl
  simp only [LatticeBasis.rvecs0, hv]
  generalize 2 * Real.pi / |rows.det| = f
  fin_cases i <;> fin_cases j <;>
    simp [LatticeBasis.vectors3d, cross_apply, dotProduct, Fin.sum_univ_succ, hV,
      Matrix.det_fin_two] <;> ring

theorem LatticeBasis.rvecs0_dual3 (rows : Matrix (Fin 3) (Fin 3) ℝ) (b : LatticeBasis 3 ℝ)
    (hb : b.vectors = rows) (i j : Fin 3) : rows i ⬝ᵥ b.rvecs0 j =
      if i = j then 2 * Real.pi / |rows.det| * rows.det else 0 := by
  have hv : b.cellVolume = |rows.det| := by
    rw [LatticeBasis.cellVolume, hb, C04_cell_volume_eq_det (by norm_num)]
  have hV : ∀ i j, b.V i j = rows j i := by intro i j; rw [← hb]; rfl
  simp only [LatticeBasis.rvecs0, hv]
  generalize 2 * Real.pi / |rows.det| = f
  fin_cases i <;> fin_cases j <;>
    simp [LatticeBasis.vectors3d, cross_apply, dotProduct, Fin.sum_univ_succ, hV,
      Matrix.det_fin_three] <;> ring

theorem dual_matrix {d : ℕ} {A R : Matrix (Fin d) (Fin d) ℝ}
    (h : ∀ i j, A i ⬝ᵥ R j = if i = j then 2 * Real.pi else 0) :
    A * Rᵀ = (2 * Real.pi) • (1 : Matrix (Fin d) (Fin d) ℝ) := by
  ext i j
  rw [Matrix.mul_apply, Matrix.smul_apply, Matrix.one_apply]
  have := h i j
  simp only [dotProduct] at this
  simp only [transpose_apply, this]
  split_ifs <;> simp

theorem reciprocal_of_dual {d : ℕ} (rows : Matrix (Fin d) (Fin d) ℝ) (b : LatticeBasis d ℝ)
    (hv : b.vectors = rows) (hdet : rows.det ≠ 0) (hd1 : d ≠ 1) (hd3 : ¬ 3 < d)
    (hdual : ∀ i j, rows i ⬝ᵥ b.rvecs0 j =
      if i = j then 2 * Real.pi / |rows.det| * rows.det else 0)
    (tol : ℝ) (h0 : 0 ≤ tol) (h1 : tol < 4 * Real.pi) (check : Bool) :
    ∃ R, b.reciprocalVectors tol check = .ok R ∧
      ∀ i j, rows i ⬝ᵥ R j = if i = j then 2 * Real.pi else 0 := by
  have hpi := Real.pi_pos
  rcases lt_or_gt_of_ne hdet with hneg | hpos
  · have hdual' : ∀ i j, rows i ⬝ᵥ b.rvecs0 j = if i = j then -(2 * Real.pi) else 0 := by
      intro i j
      rw [hdual, abs_of_neg hneg]
      congr 1
      field_simp
    refine ⟨Matrix.of fun i => -b.rvecs0 i, ?_, ?_⟩
    · have hflip : ∀ i, decide (|rows i ⬝ᵥ b.rvecs0 i + 2 * Real.pi| ≤ tol) = true := by
        intro i; simp [hdual', h0]
      simp [reciprocalVectors, hd1, hd3, hv, hflip]
    · intro i j
      show rows i ⬝ᵥ (-b.rvecs0 j) = _
      rw [dotProduct_neg, hdual']
      split_ifs <;> simp
  · have hdual' : ∀ i j, rows i ⬝ᵥ b.rvecs0 j = if i = j then 2 * Real.pi else 0 := by
      intro i j
      rw [hdual, abs_of_pos hpos]
      congr 1
      field_simp
    refine ⟨Matrix.of fun i => b.rvecs0 i, ?_, ?_⟩
    · have hflip : ∀ i, decide (|rows i ⬝ᵥ b.rvecs0 i + 2 * Real.pi| ≤ tol) = false := by
        intro i
        rw [hdual', if_pos rfl, decide_eq_false_iff_not, not_le, abs_of_pos (by positivity)]
        linarith
      have hbad : ∀ i, decide (tol < |rows i ⬝ᵥ b.rvecs0 i - 2 * Real.pi|) = false := by
        intro i; simp [hdual', h0]
      simp [reciprocalVectors, hd1, hd3, hv, hflip, hbad]
    · intro i j
      exact hdual' i j

end Lattpy

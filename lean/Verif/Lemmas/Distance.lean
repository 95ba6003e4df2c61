import Verif.Model.Real
import Verif.Lemmas.KDTree
import Mathlib.Analysis.InnerProductSpace.PiL2

/-! The model distance over the reals is the Euclidean distance. -/

set_option autoImplicit false

namespace Lattpy

theorem distance_eq_dist {d : ℕ} (x y : Vec d ℝ) :
    distance x y = dist (WithLp.toLp 2 x) (WithLp.toLp 2 y) := by
  rw [EuclideanSpace.dist_eq]
  unfold distance
  simp only [hasSqrt_real]
  congr 1
  apply Finset.sum_congr rfl
  intro i _
  simp [Real.dist_eq, pow_two]

theorem norm2_eq_norm {d : ℕ} (x : Vec d ℝ) : norm2 x = ‖WithLp.toLp 2 x‖ := by
  rw [EuclideanSpace.norm_eq]
  unfold norm2
  simp only [hasSqrt_real]
  congr 1
  apply Finset.sum_congr rfl
  intro i _
  simp [pow_two]

theorem distance_comm {d : ℕ} (x y : Vec d ℝ) (dec : Option ℕ) :
    distance x y dec = distance y x dec := by
  have h : distance x y = distance y x := by
    rw [distance_eq_dist, distance_eq_dist, dist_comm]
  cases dec with
  | none => exact h
  | some n => exact congrArg (npRound n) h

theorem distance_self {d : ℕ} (x : Vec d ℝ) : distance x x = 0 := by
  rw [distance_eq_dist, dist_self]

theorem distance_nonneg {d : ℕ} (x y : Vec d ℝ) : 0 ≤ distance x y := by
  rw [distance_eq_dist]; exact dist_nonneg

theorem distance_eq_zero {d : ℕ} {x y : Vec d ℝ} : distance x y = 0 ↔ x = y := by
  rw [distance_eq_dist, dist_eq_zero]
  constructor
  · intro h
    exact (WithLp.toLp_injective 2) h
  · rintro rfl; rfl

theorem distance_triangle {d : ℕ} (x y z : Vec d ℝ) :
    distance x z ≤ distance x y + distance y z := by
  simp only [distance_eq_dist]; exact dist_triangle _ _ _

theorem distance_add_right {d : ℕ} (x y t : Vec d ℝ) (dec : Option ℕ) :
    distance (fun k => x k + t k) (fun k => y k + t k) dec = distance x y dec := by
  unfold distance
  simp only [add_sub_add_right_eq_sub]

theorem distance_some {d : ℕ} (x y : Vec d ℝ) (n : ℕ) :
    distance x y (some n) = npRound n (distance x y) := rfl

end Lattpy

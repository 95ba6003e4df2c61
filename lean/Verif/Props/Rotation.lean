import Verif.Model.Rotation
import Verif.Lemmas.Distance
import Verif.Lemmas.Spatial
import Verif.Lemmas.Env
import Mathlib.LinearAlgebra.Matrix.Determinant.Basic
import Mathlib.Tactic.LinearCombination
import Mathlib.Tactic.Positivity
import Mathlib.Tactic.FieldSimp

/-!
# Properties C15, C16, C18: cell vectors, rotations, Wigner-Seitz cells
-/

set_option autoImplicit false

namespace Lattpy

open Matrix

/-! ## C15 compute_vectors -/

/-- C15 in one dimension: the single length is returned. -/
theorem C15_compute_vectors_1d (a : ℝ) (alpha beta gamma : Option ℝ) :
    computeVectors a none none alpha beta gamma 0 = .ok (.one a) := rfl

/-- C15 in two dimensions: the rows have lengths `a` and `b` and enclose the angle `alpha`. -/
theorem C15_compute_vectors_2d (a b alpha : ℝ) (ha : 0 < a) (hb : 0 < b)
    (beta gamma : Option ℝ) :
    ∃ v, computeVectors a (some b) none (some alpha) beta gamma 0 = .ok (.two v) ∧
      norm2 (v 0) = a ∧ norm2 (v 1) = b ∧
      v 0 ⬝ᵥ v 1 = a * b * Real.cos (alpha * Real.pi / 180) := by
  refine ⟨_, rfl, ?_, ?_, ?_⟩
  · simp [norm2, hasSqrt_real, Fin.sum_univ_two, ha.le]
  · simp only [norm2, hasSqrt_real, Fin.sum_univ_two, ne_eq, not_true, if_false]
    have : ∀ θ : ℝ, b * Real.cos θ * (b * Real.cos θ) + b * Real.sin θ * (b * Real.sin θ)
        = b ^ 2 := by
      intro θ
      linear_combination b ^ 2 * Real.sin_sq_add_cos_sq θ
    simp [this, hb.le]
  · simp [dotProduct, Fin.sum_univ_two, deg2rad, mul_div_assoc]
    ring

example : ∃ v, computeVectors 1 (some 2) none (some 90) none none 0 = .ok (.two v) :=
  ⟨_, rfl⟩

/-- C15 in three dimensions: whenever some vectors `u, v, w` have lengths `a, b, c` and
enclose the angles `alpha` (v, w), `beta` (u, w), `gamma` (u, v), with `u`, `v` not
collinear, then the returned rows do so too. -/
theorem C15_compute_vectors_3d (a b c alpha beta gamma : ℝ) (ha : 0 < a) (hb : 0 < b) (hc : 0 < c)
    (u v w : Vec 3 ℝ) (hu : u ⬝ᵥ u = a ^ 2) (hv : v ⬝ᵥ v = b ^ 2) (hw : w ⬝ᵥ w = c ^ 2)
    (hvw : v ⬝ᵥ w = b * c * Real.cos (alpha * Real.pi / 180))
    (huw : u ⬝ᵥ w = a * c * Real.cos (beta * Real.pi / 180))
    (huv : u ⬝ᵥ v = a * b * Real.cos (gamma * Real.pi / 180))
    (hgamma : Real.sin (gamma * Real.pi / 180) ≠ 0) :
    ∃ m, computeVectors a (some b) (some c) (some alpha) (some beta) (some gamma) 0 =
        .ok (.three m) ∧
      norm2 (m 0) = a ∧ norm2 (m 1) = b ∧ norm2 (m 2) = c ∧
      m 1 ⬝ᵥ m 2 = b * c * Real.cos (alpha * Real.pi / 180) ∧
      m 0 ⬝ᵥ m 2 = a * c * Real.cos (beta * Real.pi / 180) ∧
      m 0 ⬝ᵥ m 1 = a * b * Real.cos (gamma * Real.pi / 180) := by
  have hdeg : ∀ x : ℝ, deg2rad x = x * Real.pi / 180 := fun x => by rw [deg2rad, mul_div_assoc]
  set A := Real.cos (alpha * Real.pi / 180) with hA
  set B := Real.cos (beta * Real.pi / 180) with hB
  set G := Real.cos (gamma * Real.pi / 180) with hG
  set S := Real.sin (gamma * Real.pi / 180) with hS
  have hSG : S ^ 2 + G ^ 2 = 1 := Real.sin_sq_add_cos_sq _
  -- the Gram determinant is a square
  have hgram : 0 ≤ 1 + 2 * A * B * G - A ^ 2 - B ^ 2 - G ^ 2 := by
    have h1 : a ^ 2 * b ^ 2 * c ^ 2 * (1 + 2 * A * B * G - A ^ 2 - B ^ 2 - G ^ 2) =
        (Matrix.det !![u 0, u 1, u 2; v 0, v 1, v 2; w 0, w 1, w 2]) ^ 2 := by
      have e : a ^ 2 * b ^ 2 * c ^ 2 * (1 + 2 * A * B * G - A ^ 2 - B ^ 2 - G ^ 2) =
          (u ⬝ᵥ u) * (v ⬝ᵥ v) * (w ⬝ᵥ w) + 2 * (v ⬝ᵥ w) * (u ⬝ᵥ w) * (u ⬝ᵥ v)
          - (u ⬝ᵥ u) * (v ⬝ᵥ w) ^ 2 - (v ⬝ᵥ v) * (u ⬝ᵥ w) ^ 2 - (w ⬝ᵥ w) * (u ⬝ᵥ v) ^ 2 := by
        rw [hu, hv, hw, hvw, huw, huv]; ring
      rw [e, det_fin_three]
      simp [dotProduct, Fin.sum_univ_three]
      ring
    have h2 : 0 < a ^ 2 * b ^ 2 * c ^ 2 := by positivity
    by_contra hneg
    have h3 := mul_neg_of_pos_of_neg h2 (not_le.1 hneg)
    rw [h1] at h3
    exact absurd h3 (not_lt.2 (sq_nonneg _))
  have hcy : (|c| * |b| * A - b * G * (c * B)) / (b * S) = c * (A - G * B) / S := by
    rw [abs_of_pos hb, abs_of_pos hc]
    field_simp
  have hrad : 0 ≤ c ^ 2 - (c * B) ^ 2 - (c * (A - G * B) / S) ^ 2 := by
    have : c ^ 2 - (c * B) ^ 2 - (c * (A - G * B) / S) ^ 2 =
        c ^ 2 * (1 + 2 * A * B * G - A ^ 2 - B ^ 2 - G ^ 2) / S ^ 2 := by
      field_simp
      linear_combination (1 - B ^ 2) * hSG
    rw [this]
    positivity
  refine ⟨_, rfl, ?_⟩
  simp only [hdeg, ne_eq, not_true, if_false, ← hA, ← hB, ← hG, ← hS, hcy]
  have hsqrt := Real.mul_self_sqrt hrad
  set z := Real.sqrt (c ^ 2 - (c * B) ^ 2 - (c * (A - G * B) / S) ^ 2) with hz
  refine ⟨?_, ?_, ?_, ?_, ?_, ?_⟩
  · simp [norm2, hasSqrt_real, Fin.sum_univ_three, ha.le]
  · have : b * G * (b * G) + b * S * (b * S) = b ^ 2 := by linear_combination b ^ 2 * hSG
    simp [norm2, hasSqrt_real, Fin.sum_univ_three, this, hb.le]
  · have : c * B * (c * B) + c * (A - G * B) / S * (c * (A - G * B) / S) + z * z = c ^ 2 := by
      rw [hsqrt]; ring
    simp [norm2, hasSqrt_real, Fin.sum_univ_three, this, hc.le]
  · simp [dotProduct, Fin.sum_univ_three]
    field_simp
    ring
  · simp [dotProduct, Fin.sum_univ_three]
    ring
  · simp [dotProduct, Fin.sum_univ_three]
    ring

example : ∃ u v w : Vec 3 ℝ, u ⬝ᵥ u = 1 ^ 2 ∧ v ⬝ᵥ v = 2 ^ 2 ∧ w ⬝ᵥ w = 3 ^ 2 ∧
    v ⬝ᵥ w = 2 * 3 * Real.cos (90 * Real.pi / 180) ∧
    u ⬝ᵥ w = 1 * 3 * Real.cos (90 * Real.pi / 180) ∧
    u ⬝ᵥ v = 1 * 2 * Real.cos (90 * Real.pi / 180) ∧ Real.sin (90 * Real.pi / 180) ≠ 0 := by
  have : (90 : ℝ) * Real.pi / 180 = Real.pi / 2 := by ring
  refine ⟨![1, 0, 0], ![0, 2, 0], ![0, 0, 3], ?_⟩
  simp only [this]
  simp [dotProduct, Fin.sum_univ_three]
  norm_num

/-! ## C16 rotations -/

/-- C16: `rx`, `ry`, `rz` are orthogonal with determinant one, additive in the angle, the
identity at angle 0, and fix the x, y, z axis respectively. -/
theorem C16_rotation_matrices (θ φ : ℝ) :
    (∀ r ∈ [rx, ry, rz], r θ * (r θ)ᵀ = 1 ∧ (r θ).det = 1 ∧ r (θ + φ) = r θ * r φ ∧ r 0 = 1) ∧
    rx θ *ᵥ ![1, 0, 0] = ![1, 0, 0] ∧ ry θ *ᵥ ![0, 1, 0] = ![0, 1, 0] ∧
    rz θ *ᵥ ![0, 0, 1] = ![0, 0, 1] := by
  have h := Real.sin_sq_add_cos_sq θ
  refine ⟨?_, ?_, ?_, ?_⟩
  · intro r hr
    simp only [List.mem_cons, List.not_mem_nil, or_false] at hr
    rcases hr with rfl | rfl | rfl <;> refine ⟨?_, ?_, ?_, ?_⟩
    · ext i j
      fin_cases i <;> fin_cases j <;> simp [rx, Matrix.mul_apply, Fin.sum_univ_three] <;>
        nlinarith [h]
    · rw [det_fin_three]; simp [rx]; linear_combination h
    · ext i j
      fin_cases i <;> fin_cases j <;>
        simp [rx, Matrix.mul_apply, Fin.sum_univ_three, Real.cos_add, Real.sin_add] <;> ring
    · ext i j
      fin_cases i <;> fin_cases j <;> simp [rx]
    · ext i j
      fin_cases i <;> fin_cases j <;> simp [ry, Matrix.mul_apply, Fin.sum_univ_three] <;>
        nlinarith [h]
    · rw [det_fin_three]; simp [ry]; linear_combination h
    · ext i j
      fin_cases i <;> fin_cases j <;>
        simp [ry, Matrix.mul_apply, Fin.sum_univ_three, Real.cos_add, Real.sin_add] <;> ring
    · ext i j
      fin_cases i <;> fin_cases j <;> simp [ry]
    · ext i j
      fin_cases i <;> fin_cases j <;> simp [rz, Matrix.mul_apply, Fin.sum_univ_three] <;>
        nlinarith [h]
    · rw [det_fin_three]; simp [rz]; linear_combination h
    · ext i j
      fin_cases i <;> fin_cases j <;>
        simp [rz, Matrix.mul_apply, Fin.sum_univ_three, Real.cos_add, Real.sin_add] <;> ring
    · ext i j
      fin_cases i <;> fin_cases j <;> simp [rz]
  · ext i; fin_cases i <;> simp [rx, Matrix.mulVec, dotProduct, Fin.sum_univ_three]
  · ext i; fin_cases i <;> simp [ry, Matrix.mulVec, dotProduct, Fin.sum_univ_three]
  · ext i; fin_cases i <;> simp [rz, Matrix.mulVec, dotProduct, Fin.sum_univ_three]

/-- C16: the rotations are right-handed: `rx` turns y towards z, `ry` turns z towards x and `rz`
turns x towards y, by the given angle. -/
theorem C16_right_handed (θ : ℝ) :
    rx θ *ᵥ ![0, 1, 0] = ![0, Real.cos θ, Real.sin θ] ∧
    ry θ *ᵥ ![0, 0, 1] = ![Real.sin θ, 0, Real.cos θ] ∧
    rz θ *ᵥ ![1, 0, 0] = ![Real.cos θ, Real.sin θ, 0] := by
  refine ⟨?_, ?_, ?_⟩ <;> ext i <;> fin_cases i <;>
    simp [rx, ry, rz, Matrix.mulVec, dotProduct, Fin.sum_univ_three]

example : rz (Real.pi / 2) *ᵥ ![1, 0, 0] = ![0, 1, 0] := by
  simpa using (C16_right_handed (Real.pi / 2)).2.2

/-- C16: `rotate2d` and `rotate3d` about y or z turn by the given angle, in degrees or radians, but
in the negative sense: the point is multiplied from the left. -/
theorem C16_rotate_angle_partial (x y z θ : ℝ) (degree : Bool) :
    let t := if degree then θ * (Real.pi / 180) else θ
    rotate2d ![x, y] θ degree =
      ![Real.cos t * x + Real.sin t * y, -Real.sin t * x + Real.cos t * y] ∧
    rotate3d ![x, y, z] 0 0 θ degree =
      ![Real.cos t * x + Real.sin t * y, -Real.sin t * x + Real.cos t * y, z] ∧
    rotate3d ![x, y, z] 0 θ 0 degree =
      ![Real.cos t * x - Real.sin t * z, y, Real.sin t * x + Real.cos t * z] := by
  intro t
  have h0 : deg2rad 0 = 0 := by simp [deg2rad]
  have ht : (if degree then deg2rad θ else θ) = t := rfl
  refine ⟨?_, ?_, ?_⟩
  · unfold rotate2d
    rw [ht]
    ext i
    fin_cases i <;> simp [rz] <;> ring
  · unfold rotate3d rot
    simp only [h0, ht, ite_self, ne_eq, not_true, if_false]
    split_ifs with h
    · rw [h]
      ext i
      fin_cases i <;> simp
    · ext i
      fin_cases i <;> simp [rz, Matrix.vecMul, dotProduct, Fin.sum_univ_three] <;> ring
  · unfold rotate3d rot
    simp only [h0, ht, ite_self, ne_eq, not_true, if_false]
    split_ifs with h
    · rw [h]
      ext i
      fin_cases i <;> simp
    · ext i
      fin_cases i <;> simp [ry, Matrix.vecMul, dotProduct, Fin.sum_univ_three] <;> ring

/-- C16 fails for the sense of rotation: `rotate2d` by 90 degrees takes `(1, 0)` to `(0, -1)`, while
the z-rotation matrix takes it to `(0, 1)`. -/
theorem C16_rotate2d_sense_fails : rotate2d ![1, 0] 90 true = ![0, -1] ∧
    rz (deg2rad 90) *ᵥ ![1, 0, 0] = ![0, 1, 0] := by
  have h90 : deg2rad 90 = Real.pi / 2 := by simp [deg2rad]; ring
  constructor
  · have h := (C16_rotate_angle_partial 1 0 0 90 true).1
    have h90' : (90 : ℝ) * (Real.pi / 180) = Real.pi / 2 := by ring
    simpa [h90'] using h
  · rw [h90]
    simpa using (C16_right_handed (Real.pi / 2)).2.2

theorem rot_orthogonal (θx θy θz : ℝ) : rot θx θy θz * (rot θx θy θz)ᵀ = 1 := by
  have hy := ((C16_rotation_matrices θy 0).1 ry (by simp)).1
  have hz := ((C16_rotation_matrices θz 0).1 rz (by simp)).1
  have hx := ((C16_rotation_matrices θx 0).1 rz (by simp)).1
  have key : ∀ A B : Matrix (Fin 3) (Fin 3) ℝ, A * Aᵀ = 1 → B * Bᵀ = 1 →
      (A * B) * (A * B)ᵀ = 1 := by
    intro A B hA hB
    rw [transpose_mul, Matrix.mul_assoc, ← Matrix.mul_assoc B, hB, Matrix.one_mul, hA]
  unfold rot
  dsimp only
  split_ifs <;> simp only [Matrix.one_mul] <;>
    first
    | exact key _ _ (key _ _ hz hy) hx
    | exact key _ _ hz hy
    | exact key _ _ hz hx
    | exact key _ _ hy hx
    | exact hz
    | exact hy
    | exact hx
    | simp

theorem sum_sq_vecMul {n : ℕ} (R : Matrix (Fin n) (Fin n) ℝ) (hR : R * Rᵀ = 1) (a : Vec n ℝ) :
    (∑ i, (a ᵥ* R) i * (a ᵥ* R) i) = ∑ i, a i * a i := by
  have h1 : (a ᵥ* R) ⬝ᵥ (a ᵥ* R) = a ⬝ᵥ a := by
    rw [← Matrix.dotProduct_mulVec, ← Matrix.mulVec_transpose R a, Matrix.mulVec_mulVec, hR,
      Matrix.one_mulVec]
  exact h1

/-- C16: rotating preserves lengths and mutual distances (in degrees and in radians, for all
angles). -/
theorem C16_rotate_isometry (a b : Vec 2 ℝ) (c e : Vec 3 ℝ) (θ θx θy θz : ℝ) (degree : Bool) :
    norm2 (rotate2d a θ degree) = norm2 a ∧ norm2 (rotate3d c θx θy θz degree) = norm2 c ∧
    distance (rotate2d a θ degree) (rotate2d b θ degree) = distance a b ∧
    distance (rotate3d c θx θy θz degree) (rotate3d e θx θy θz degree) = distance c e := by
  have h2 : ∀ φ : ℝ, (!![rz φ 0 0, rz φ 0 1; rz φ 1 0, rz φ 1 1] : Matrix _ _ ℝ) *
      (!![rz φ 0 0, rz φ 0 1; rz φ 1 0, rz φ 1 1] : Matrix _ _ ℝ)ᵀ = 1 := by
    intro φ
    have h := Real.sin_sq_add_cos_sq φ
    ext i j
    fin_cases i <;> fin_cases j <;> simp [rz, Matrix.mul_apply, Fin.sum_univ_two] <;>
      nlinarith [h]
  have hd2 : ∀ x y : Vec 2 ℝ, distance x y = norm2 (x - y) := fun x y => rfl
  have hd3 : ∀ x y : Vec 3 ℝ, distance x y = norm2 (x - y) := fun x y => rfl
  have n2 : ∀ x : Vec 2 ℝ, norm2 (rotate2d x θ degree) = norm2 x := by
    intro x
    simp only [norm2, rotate2d]
    rw [sum_sq_vecMul _ (h2 _)]
  have n3 : ∀ x : Vec 3 ℝ, norm2 (rotate3d x θx θy θz degree) = norm2 x := by
    intro x
    simp only [norm2, rotate3d]
    rw [sum_sq_vecMul _ (rot_orthogonal _ _ _)]
  refine ⟨n2 a, n3 c, ?_, ?_⟩
  · rw [hd2, hd2, ← n2 (a - b)]
    congr 1
    simp only [rotate2d]
    rw [sub_vecMul]
  · rw [hd3, hd3, ← n3 (c - e)]
    congr 1
    simp only [rotate3d]
    rw [sub_vecMul]

/-- C16, restricted to the angles about y and z: rotating about one axis only fixes the
points of that axis. -/
theorem C16_rotate3d_axis_partial (t θ : ℝ) (degree : Bool) :
    rotate3d ![0, t, 0] 0 θ 0 degree = ![0, t, 0] ∧
    rotate3d ![0, 0, t] 0 0 θ degree = ![0, 0, t] := by
  have h0 : deg2rad 0 = 0 := by simp [deg2rad]
  constructor
  · unfold rotate3d rot
    simp only [h0, ite_self, ne_eq, not_true, if_false]
    split_ifs <;> simp only [Matrix.vecMul_one, Matrix.one_mul] <;> ext i <;>
      fin_cases i <;> simp [ry, Matrix.vecMul, dotProduct, Fin.sum_univ_three]
  · unfold rotate3d rot
    simp only [h0, ite_self, ne_eq, not_true, if_false]
    split_ifs <;> simp only [Matrix.vecMul_one, Matrix.one_mul] <;> ext i <;>
      fin_cases i <;> simp [rz, Matrix.vecMul, dotProduct, Fin.sum_univ_three]

/-- C16 fails for the angle about x: a rotation by 90 degrees "about x" moves the point
`(1, 0, 0)` of the x axis to `(0, -1, 0)`. -/
theorem C16_rotate3d_axis_fails : rotate3d ![1, 0, 0] 90 0 0 true = ![0, -1, 0] := by
  have h0 : deg2rad 0 = 0 := by simp [deg2rad]
  have h90 : deg2rad 90 = Real.pi / 2 := by simp [deg2rad]; ring
  have hne : Real.pi / 2 ≠ 0 := by positivity
  unfold rotate3d rot
  simp only [h0, h90, ite_self, ne_eq, not_true, if_false, if_true, hne, not_false_eq_true]
  ext i
  fin_cases i <;> simp [rz, Matrix.vecMul, dotProduct, Fin.sum_univ_three]

/-! ## C18 Wigner-Seitz cells -/

theorem knn_one {n : ℕ} (env : Env ℝ) (dist : ℕ → ℝ) (hn : 0 < n) :
    ∃ i, (env.knn n dist 1 ⊤).head? = some ((dist i : WithTop ℝ), i) ∧ i < n ∧
      ∀ j < n, dist i ≤ dist j := by
  obtain ⟨sel, h1, h2, h3, h4, h5, h6⟩ := env.knn_spec n dist 1 ⊤
  match sel, h2 with
  | [], _ =>
    exact absurd (h5 0 hn (WithTop.coe_lt_top _) (by simp)).1 (by simp)
  | [i], _ =>
    refine ⟨i, by rw [h6]; rfl, (h3 i (by simp)).1, ?_⟩
    intro j hj
    by_cases hij : j = i
    · rw [hij]
    · exact (h5 j hj (WithTop.coe_lt_top _) (by simpa using hij)).2 i (by simp)

/-- C18: for distinct points including the origin, an accepted point is at least as close to
the origin as to every other point used, and a point strictly closer to the origin than to
all other points is accepted.  (For points with several nearest lattice points the answer
depends on the tie breaking of the library.) -/
theorem C18_check_partial {d : ℕ} (env : Env ℝ) (w : WSCell d ℝ) (hnd : w.points.Nodup)
    (h0 : 0 ∈ w.points) (x : Vec d ℝ) :
    (w.check env x = true → ∀ p ∈ w.points, distance x 0 ≤ distance x p) ∧
    ((∀ p ∈ w.points, p ≠ 0 → distance x 0 < distance x p) → w.check env x = true) := by
  obtain ⟨r, hr, hr0⟩ := List.mem_iff_getElem.1 h0
  have hpd : ∀ q j (hj : j < w.points.length),
      pointDist w.points q j = distance q w.points[j] := by
    intro q j hj
    simp [pointDist, hj, distance_comm]
  have hlen : 0 < w.points.length := by omega
  have hroot : w.root env = r := by
    obtain ⟨i, h1, h2, h3⟩ := knn_one env (pointDist w.points 0) hlen
    have hi : w.root env = i := by simp [WSCell.root, WSCell.nearest, h1]
    have h4 := h3 r hr
    rw [hpd _ _ h2, hpd _ _ hr, hr0, distance_self] at h4
    have h5 := distance_eq_zero.1 (le_antisymm h4 (distance_nonneg _ _))
    rw [hi]
    exact (hnd.getElem_inj_iff).1 (by rw [← h5, hr0])
  obtain ⟨i, h1, h2, h3⟩ := knn_one env (pointDist w.points x) hlen
  have hi : w.nearest env x = i := by simp [WSCell.nearest, h1]
  have hcheck : w.check env x = true ↔ i = r := by simp [WSCell.check, hi, hroot]
  constructor
  · intro h p hp
    have hir := hcheck.1 h
    obtain ⟨j, hj, rfl⟩ := List.mem_iff_getElem.1 hp
    have := h3 j hj
    rw [hpd _ _ h2, hpd _ _ hj] at this
    subst hir
    rwa [hr0] at this
  · intro h
    rw [hcheck]
    by_contra hne
    have hp0 : w.points[i] ≠ 0 := fun h' => hne ((hnd.getElem_inj_iff).1 (h'.trans hr0.symm))
    have h4 := h _ (List.getElem_mem h2) hp0
    have h5 := h3 r hr
    rw [hpd _ _ h2, hpd _ _ hr, hr0] at h5
    exact absurd h5 (not_le.2 h4)

example : ([![0], ![1], ![-1]] : List (Vec 1 ℝ)).Nodup ∧ (0 : Vec 1 ℝ) ∈ ([![0], ![1], ![-1]] : List (Vec 1 ℝ)) := by
  refine ⟨by simp; norm_num, ?_⟩
  simp
  left; ext i; simp

theorem foldl_min_map {d : ℕ} (k : Fin d) (vs : List (Vec d ℝ)) (m : ℝ) :
    vs.foldl (fun m x => min m (x k)) m = (vs.map fun x => x k).foldl min m := by
  induction vs generalizing m with
  | nil => rfl
  | cons v vs ih => simp [ih]

theorem foldl_max_map {d : ℕ} (k : Fin d) (vs : List (Vec d ℝ)) (m : ℝ) :
    vs.foldl (fun m x => max m (x k)) m = (vs.map fun x => x k).foldl max m := by
  induction vs generalizing m with
  | nil => rfl
  | cons v vs ih => simp [ih]

/-- C18: the limits are the per-axis extrema of the vertices; without vertices the call
raises. -/
theorem C18_limits {d : ℕ} (w : WSCell d ℝ) :
    (w.vertices = [] → w.limits = .error .value) ∧
    (w.vertices ≠ [] → ∃ l, w.limits = .ok l ∧ ∀ k,
      IsLeast {t | ∃ v ∈ w.vertices, t = v k} (l k).1 ∧
      IsGreatest {t | ∃ v ∈ w.vertices, t = v k} (l k).2) := by
  unfold WSCell.limits
  match w.vertices with
  | [] => simp
  | v :: vs =>
    refine ⟨by simp, fun _ => ⟨_, rfl, fun k => ?_⟩⟩
    have hset : {t | ∃ x ∈ v :: vs, t = x k} = {t | t = v k ∨ t ∈ vs.map fun x => x k} := by
      ext t; simp [eq_comm]
    dsimp only
    rw [foldl_min_map, foldl_max_map, hset]
    exact ⟨foldl_min_isLeast _ _, foldl_max_isGreatest _ _⟩

/-- C18: in one dimension the vertices are the points halfway to the other points: as far from the
origin as from one of them. -/
theorem C18_vertices (points : List (Vec 1 ℝ)) (v : Vec 1 ℝ) :
    v ∈ voronoiVertices1 points ↔ ∃ p ∈ points, p ≠ 0 ∧ distance v 0 = distance v p := by
  unfold voronoiVertices1
  rw [List.mem_filter, List.mem_map, decide_eq_true_eq]
  have hd : ∀ p : Vec 1 ℝ, p ≠ 0 → (distance v 0 = distance v p ↔ (fun k => p k / 2) = v) := by
    intro p hp
    have hp0 : p 0 ≠ 0 := fun h => hp (by funext k; rw [Subsingleton.elim k 0]; exact h)
    have h1 : ∀ q : Vec 1 ℝ, distance v q = |v 0 - q 0| := by
      intro q
      simp [distance, hasSqrt_real, Real.sqrt_mul_self_eq_abs]
    rw [h1, h1, Pi.zero_apply, sub_zero, abs_eq_abs]
    constructor
    · rintro (h | h)
      · exact absurd (by linarith : p 0 = 0) hp0
      · funext k
        rw [Subsingleton.elim k 0]
        linarith
    · intro h
      right
      have h2 : p 0 / 2 = v 0 := congrFun h 0
      linarith
  constructor
  · rintro ⟨⟨p, hp, rfl⟩, h0⟩
    have hp0 : p ≠ 0 := by
      rintro rfl
      exact h0 (by funext k; simp)
    exact ⟨p, hp, hp0, (hd p hp0).2 rfl⟩
  · rintro ⟨p, hp, hp0, h⟩
    have := (hd p hp0).1 h
    refine ⟨⟨p, hp, this⟩, ?_⟩
    rintro rfl
    apply hp0
    funext k
    have := congrFun this k
    simp only [Pi.zero_apply] at this ⊢
    linarith

example : (fun _ : Fin 1 => (1 : ℝ)) ∈ voronoiVertices1 (d := 1) [fun _ => (2 : ℝ), 0] :=
  (C18_vertices _ _).2 ⟨fun _ => 2, by simp, fun h => by simpa using congrFun h 0, by
    simp [distance]; norm_num⟩

/-- C18 fails for the size: for the square cell with vertices `(±1, ±1)` the reported size is
`(0, 0)`, and in one dimension the call always raises. -/
theorem C18_size_fails :
    (∀ points : List (Vec 2 ℝ),
      (WSCell.mk points [![-1, -1], ![-1, 1], ![1, -1], ![1, 1]]).limits = .ok (fun _ => (-1, 1)) ∧
      (WSCell.mk points [![-1, -1], ![-1, 1], ![1, -1], ![1, 1]]).size = .ok (0, 0)) ∧
    (∀ w : WSCell 1 ℝ, ∃ e, w.size = .error e) := by
  constructor
  · intro points
    have hl : (WSCell.mk points [![-1, -1], ![-1, 1], ![1, -1], ![1, 1]]).limits =
        .ok (fun _ => ((-1 : ℝ), (1 : ℝ))) := by
      unfold WSCell.limits
      dsimp only
      congr 1
      funext k
      fin_cases k <;> simp
    refine ⟨hl, ?_⟩
    unfold WSCell.size
    rw [hl]
    simp
  · intro w
    unfold WSCell.size
    cases w.limits with
    | error e => exact ⟨e, rfl⟩
    | ok l => exact ⟨.index, by simp⟩

end Lattpy

import Verif.Model.Presets
import Verif.Props.Basis
import Mathlib.Tactic.FinCases
import Mathlib.Tactic.LinearCombination

/-! # Properties C80 – C82 (preset bases of `basis.py`) -/

set_option autoImplicit false

namespace Lattpy

open Matrix

namespace LatticeBasis

/-- `init` succeeds on vectors with non-zero determinant and keeps them. -/
theorem init_of_det {d : ℕ} {rows : Matrix (Fin d) (Fin d) ℝ} (h : rows.det ≠ 0) :
    ∃ b, LatticeBasis.init rows = .ok b ∧ b.vectors = rows := by
  obtain ⟨b, hb⟩ := (init_eq_ok_iff rows).2 h
  exact ⟨b, hb, init_vectors hb⟩

/-- A lattice point is the combination of the basis vectors. -/
theorem translate_zero_apply {d : ℕ} (b : LatticeBasis d ℝ) (n : Fin d → ℤ) (k : Fin d) :
    b.translate n 0 k = ∑ i, (n i : ℝ) * b.vectors i k := by
  simp only [translate, zero_add, mulVec, dotProduct, vectors, transpose_apply]
  exact Finset.sum_congr rfl fun i _ => mul_comm _ _

/-! ## C80 lengths and angles -/

/-- C80: for a non-zero constant the cubic presets of every dimension exist, their vectors have
length `|a|` and are orthogonal. -/
theorem C80_hypercubic (d : ℕ) (a : ℝ) (ha : a ≠ 0) :
    ∃ b, hypercubic d a = .ok b ∧
      ∀ i j, b.vectors i ⬝ᵥ b.vectors j = if i = j then a ^ 2 else 0 := by
  have hdet : (a • (1 : Matrix (Fin d) (Fin d) ℝ)).det ≠ 0 := by
    rw [det_smul, det_one, mul_one]; exact pow_ne_zero _ ha
  obtain ⟨b, hb, hv⟩ := init_of_det hdet
  refine ⟨b, hb, fun i j => ?_⟩
  rw [hv]
  by_cases h : i = j
  · subst h
    simp [dotProduct, Matrix.one_apply, sq]
  · simp only [dotProduct, Matrix.smul_apply, Matrix.one_apply, smul_eq_mul, h, if_false]
    apply Finset.sum_eq_zero
    intro k _
    by_cases h1 : i = k
    · have : j ≠ k := fun e => h (h1.trans e.symm)
      simp [this]
    · simp [h1]

/-- C80: `square`, `sc` and `chain` are the cubic presets in two, three and one dimensions. -/
theorem C80_named_cubic (a : ℝ) :
    square a = hypercubic 2 a ∧ sc a = hypercubic 3 a ∧ chain a = hypercubic 1 a := by
  refine ⟨rfl, rfl, ?_⟩
  unfold chain hypercubic
  congr 1
  ext i j
  fin_cases i; fin_cases j
  simp

/-- C80: the rectangular vectors have lengths `|a1|` and `|a2|` and are orthogonal; the oblique
ones have these lengths and enclose the angle `alpha`. -/
theorem C80_oblique (alpha a1 a2 : ℝ) (h1 : a1 ≠ 0) (h2 : a2 ≠ 0) :
    (∃ b, rectangular a1 a2 = .ok b ∧ b.vectors 0 ⬝ᵥ b.vectors 0 = a1 ^ 2 ∧
      b.vectors 1 ⬝ᵥ b.vectors 1 = a2 ^ 2 ∧ b.vectors 0 ⬝ᵥ b.vectors 1 = 0) ∧
    (Real.sin alpha ≠ 0 → ∃ b, oblique alpha a1 a2 = .ok b ∧
      b.vectors 0 ⬝ᵥ b.vectors 0 = a1 ^ 2 ∧ b.vectors 1 ⬝ᵥ b.vectors 1 = a2 ^ 2 ∧
      b.vectors 0 ⬝ᵥ b.vectors 1 = a1 * a2 * Real.cos alpha) := by
  constructor
  · obtain ⟨b, hb, hv⟩ := init_of_det (rows := !![a1, 0; 0, a2])
      (by rw [det_fin_two_of]; simp [h1, h2])
    refine ⟨b, hb, ?_, ?_, ?_⟩ <;> rw [hv] <;> simp [dotProduct, Fin.sum_univ_two, sq]
  · intro hs
    obtain ⟨b, hb, hv⟩ := init_of_det
      (rows := !![a1, 0; a2 * Real.cos alpha, a2 * Real.sin alpha])
      (by rw [det_fin_two_of]; simp [h1, h2, hs])
    refine ⟨b, hb, ?_, ?_, ?_⟩ <;> rw [hv] <;> simp [dotProduct, Fin.sum_univ_two]
    · ring
    · linear_combination a2 ^ 2 * Real.sin_sq_add_cos_sq alpha
    · ring

/-- C80: both hexagonal vectors have length `√3 |a|` and enclose an angle of 60 degrees (their
product is half the squared length). -/
theorem C80_hexagonal (a : ℝ) (ha : a ≠ 0) :
    ∃ b, hexagonal a = .ok b ∧ b.vectors 0 ⬝ᵥ b.vectors 0 = 3 * a ^ 2 ∧
      b.vectors 1 ⬝ᵥ b.vectors 1 = 3 * a ^ 2 ∧
      b.vectors 0 ⬝ᵥ b.vectors 1 = 3 * a ^ 2 * Real.cos (Real.pi / 3) := by
  have h3 : Real.sqrt 3 * Real.sqrt 3 = 3 := Real.mul_self_sqrt (by norm_num)
  have h0 : Real.sqrt 3 ≠ 0 := by positivity
  obtain ⟨b, hb, hv⟩ := init_of_det (rows := (a / 2) • !![3, Real.sqrt 3; 3, -Real.sqrt 3]) (by
    rw [det_smul, det_fin_two_of]
    refine mul_ne_zero (pow_ne_zero _ (by simpa using ha)) ?_
    intro h
    apply h0
    linarith)
  refine ⟨b, hb, ?_, ?_, ?_⟩ <;> rw [hv] <;> simp [dotProduct, Fin.sum_univ_two]
  · linear_combination a ^ 2 / 4 * h3
  · linear_combination a ^ 2 / 4 * h3
  · linear_combination -(a ^ 2 / 4) * h3

/-- C80: a vanishing constant is rejected with `LinAlgError` (in at least one dimension). -/
theorem C80_zero (d : ℕ) (a2 alpha : ℝ) :
    hypercubic (d + 1) 0 = .error .linalg ∧ rectangular 0 a2 = .error .linalg ∧
    oblique alpha 0 a2 = .error .linalg ∧ hexagonal 0 = .error .linalg ∧
    fcc 0 = .error .linalg ∧ bcc 0 = .error .linalg ∧ hexagonal3d 0 a2 = .error .linalg := by
  have key : ∀ {n : ℕ} (rows : Matrix (Fin n) (Fin n) ℝ), rows.det = 0 →
      LatticeBasis.init rows = .error .linalg := fun rows h => (init_error_iff rows).2 h
  refine ⟨key _ ?_, key _ ?_, key _ ?_, key _ ?_, key _ ?_, key _ ?_, key _ ?_⟩ <;>
    simp

example : ∃ b, hypercubic 4 (-2) = .ok b ∧ b.vectors 3 ⬝ᵥ b.vectors 3 = 4 := by
  obtain ⟨b, h1, h2⟩ := C80_hypercubic 4 (-2) (by norm_num)
  exact ⟨b, h1, by rw [h2]; norm_num⟩
example : Real.sin (Real.pi / 2) ≠ 0 := by simp

/-! ## C81 centred cubic lattices -/

/-- C81: the points of the `fcc` lattice are the integer points with even coordinate sum, in units
of `a / 2`: corners and face centres of the cubes of edge `a`. -/
theorem C81_fcc (a : ℝ) (ha : a ≠ 0) :
    ∃ b, fcc a = .ok b ∧ ∀ x : Vec 3 ℝ, (∃ n, b.translate n 0 = x) ↔
      ∃ z : Fin 3 → ℤ, Even (z 0 + z 1 + z 2) ∧ ∀ k, x k = a / 2 * z k := by
  obtain ⟨b, hb, hv⟩ := init_of_det (rows := (a / 2) • !![(1 : ℝ), 1, 0; 1, 0, 1; 0, 1, 1]) (by
    rw [det_smul, det_fin_three]
    refine mul_ne_zero (pow_ne_zero _ (by simpa using ha)) ?_
    simp
    norm_num)
  refine ⟨b, hb, fun x => ⟨?_, ?_⟩⟩
  · rintro ⟨n, rfl⟩
    refine ⟨![n 0 + n 1, n 0 + n 2, n 1 + n 2], ⟨n 0 + n 1 + n 2, by simp; ring⟩, fun k => ?_⟩
    rw [translate_zero_apply, hv, Fin.sum_univ_three]
    fin_cases k <;> simp <;> ring
  · rintro ⟨z, ⟨m, hm⟩, hx⟩
    have hm' : (z 0 : ℝ) + z 1 + z 2 = m + m := by exact_mod_cast hm
    refine ⟨![m - z 2, m - z 1, m - z 0], ?_⟩
    funext k
    rw [translate_zero_apply, hv, Fin.sum_univ_three, hx]
    fin_cases k <;> simp
    · linear_combination -(a / 2) * hm'
    · linear_combination -(a / 2) * hm'
    · linear_combination -(a / 2) * hm'

/-- C81: the points of the `bcc` lattice are the integer points whose coordinates are all even or
all odd, in units of `a / 2`: corners and centres of the cubes of edge `a`. -/
theorem C81_bcc (a : ℝ) (ha : a ≠ 0) :
    ∃ b, bcc a = .ok b ∧ ∀ x : Vec 3 ℝ, (∃ n, b.translate n 0 = x) ↔
      ∃ z : Fin 3 → ℤ, Even (z 0 - z 1) ∧ Even (z 1 - z 2) ∧ ∀ k, x k = a / 2 * z k := by
  obtain ⟨b, hb, hv⟩ := init_of_det (rows := (a / 2) • !![(1 : ℝ), 1, 1; 1, -1, 1; -1, 1, 1]) (by
    rw [det_smul, det_fin_three]
    refine mul_ne_zero (pow_ne_zero _ (by simpa using ha)) ?_
    simp
    norm_num)
  refine ⟨b, hb, fun x => ⟨?_, ?_⟩⟩
  · rintro ⟨n, rfl⟩
    refine ⟨![n 0 + n 1 - n 2, n 0 - n 1 + n 2, n 0 + n 1 + n 2], ⟨n 1 - n 2, by simp; ring⟩,
      ⟨-n 1, by simp; ring⟩, fun k => ?_⟩
    rw [translate_zero_apply, hv, Fin.sum_univ_three]
    fin_cases k <;> simp <;> ring
  · rintro ⟨z, ⟨p, hp⟩, ⟨q, hq⟩, hx⟩
    have hp' : (z 0 : ℝ) - z 1 = p + p := by exact_mod_cast hp
    have hq' : (z 1 : ℝ) - z 2 = q + q := by exact_mod_cast hq
    refine ⟨![z 1 + p, -q, -p - q], ?_⟩
    funext k
    rw [translate_zero_apply, hv, Fin.sum_univ_three, hx]
    fin_cases k <;> simp
    · linear_combination -(a / 2) * hp'
    · ring
    · linear_combination (a / 2) * hq'

example : ∃ z : Fin 3 → ℤ, Even (z 0 + z 1 + z 2) ∧ z = ![1, 1, 0] := ⟨_, by decide, rfl⟩
example : ∃ z : Fin 3 → ℤ, Even (z 0 - z 1) ∧ Even (z 1 - z 2) ∧ z = ![1, -1, 3] :=
  ⟨_, by decide, by decide, rfl⟩

/-! ## C82 hexagonal layers -/

/-- C82: the layers of `hexagonal3d` are `a / 2 * az` apart, so they are `az` apart exactly for
`a = 2`. -/
theorem C82_layers_partial (a az : ℝ) (ha : a ≠ 0) (haz : az ≠ 0) :
    ∃ b, hexagonal3d a az = .ok b ∧ b.vectors 2 = ![0, 0, a / 2 * az] ∧
      (b.vectors 2 = ![0, 0, az] ↔ a = 2) := by
  have h0 : Real.sqrt 3 ≠ 0 := by positivity
  obtain ⟨b, hb, hv⟩ := init_of_det
    (rows := (a / 2) • !![3, Real.sqrt 3, 0; 3, -Real.sqrt 3, 0; 0, 0, az]) (by
    rw [det_smul, det_fin_three]
    refine mul_ne_zero (pow_ne_zero _ (by simpa using ha)) ?_
    simp
    intro h
    have : Real.sqrt 3 * az = 0 := by linarith
    exact (mul_ne_zero h0 haz) this)
  have h2 : b.vectors 2 = ![0, 0, a / 2 * az] := by
    rw [hv]
    funext k
    fin_cases k <;> simp
  refine ⟨b, hb, h2, ?_⟩
  rw [h2]
  constructor
  · intro h
    have h3 : a / 2 * az = az := by simpa using congrFun h 2
    have h4 : (a / 2 - 1) * az = 0 := by linear_combination h3
    rcases mul_eq_zero.1 h4 with h5 | h5
    · linarith
    · exact absurd h5 haz
  · rintro rfl
    norm_num

/-- C82 fails for the default `a = 1`: the prefactor `a / 2` of the in-plane vectors multiplies
`az` as well (basis.py 131-133), so that the layers of `hexagonal3d(a=1, az=1)` are 1/2 apart. -/
theorem C82_layers_fails : ∃ b, hexagonal3d 1 1 = .ok b ∧ b.vectors 2 = ![0, 0, 1 / 2] ∧
    b.vectors 2 ⬝ᵥ b.vectors 2 ≠ 1 ^ 2 := by
  have h0 : Real.sqrt 3 ≠ 0 := by positivity
  obtain ⟨b, hb, hv⟩ := init_of_det
    (rows := ((1 : ℝ) / 2) • !![3, Real.sqrt 3, 0; 3, -Real.sqrt 3, 0; 0, 0, 1]) (by
    rw [det_smul, det_fin_three]
    refine mul_ne_zero (by norm_num) ?_
    simp
    intro h
    apply h0
    linarith)
  have h2 : b.vectors 2 = ![0, 0, 1 / 2] := by
    rw [hv]
    funext k
    fin_cases k <;> simp
  refine ⟨b, hb, h2, ?_⟩
  rw [h2]
  simp [dotProduct, Fin.sum_univ_three]
  norm_num

example : ∃ b, hexagonal3d 2 5 = .ok b ∧ b.vectors 2 = ![0, 0, 5] := by
  obtain ⟨b, h1, -, h3⟩ := C82_layers_partial 2 5 (by norm_num) (by norm_num)
  exact ⟨b, h1, h3.2 rfl⟩

end LatticeBasis

end Lattpy

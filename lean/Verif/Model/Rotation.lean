import Verif.Model.Real
import Verif.Model.Spatial
import Mathlib.Analysis.SpecialFunctions.Trigonometric.Basic
import Mathlib.Data.Matrix.Mul

/-!
# Model of the trigonometric part of `lattpy/spatial.py` (over the reals)
-/

set_option autoImplicit false

noncomputable section

namespace Lattpy

open Matrix

/-- `np.deg2rad`. -/
def deg2rad (x : ℝ) : ℝ := x * (Real.pi / 180)

/-- `rx(theta)`, spatial.py 533-536. -/
def rx (θ : ℝ) : Matrix (Fin 3) (Fin 3) ℝ :=
  !![1, 0, 0; 0, Real.cos θ, -Real.sin θ; 0, Real.sin θ, Real.cos θ]

/-- `ry(theta)`, spatial.py 539-542. -/
def ry (θ : ℝ) : Matrix (Fin 3) (Fin 3) ℝ :=
  !![Real.cos θ, 0, Real.sin θ; 0, 1, 0; -Real.sin θ, 0, Real.cos θ]

/-- `rz(theta)`, spatial.py 545-548. -/
def rz (θ : ℝ) : Matrix (Fin 3) (Fin 3) ℝ :=
  !![Real.cos θ, -Real.sin θ, 0; Real.sin θ, Real.cos θ, 0; 0, 0, 1]

/-- `rot(thetax, thetay, thetaz)`, spatial.py 551-562, with the three `if`s (an angle is
skipped when it is zero); line 561 uses `rz` for `thetax`. -/
def rot (θx θy θz : ℝ) : Matrix (Fin 3) (Fin 3) ℝ :=
  let r := 1
  let r := if θz ≠ 0 then r * rz θz else r
  let r := if θy ≠ 0 then r * ry θy else r
  let r := if θx ≠ 0 then r * rz θx else r
  r

/-- `rotate2d(a, theta, degree)`, spatial.py 565-569, for one row vector `a`
(`rz(theta)[:2, :2]` is the upper left block). -/
def rotate2d (a : Vec 2 ℝ) (θ : ℝ) (degree : Bool) : Vec 2 ℝ :=
  let θ := if degree then deg2rad θ else θ
  a ᵥ* !![rz θ 0 0, rz θ 0 1; rz θ 1 0, rz θ 1 1]

/-- `rotate3d(a, thetax, thetay, thetaz, degree)`, spatial.py 572-578, for one row vector. -/
def rotate3d (a : Vec 3 ℝ) (θx θy θz : ℝ) (degree : Bool) : Vec 3 ℝ :=
  let θx' := if degree then deg2rad θx else θx
  let θy' := if degree then deg2rad θy else θy
  let θz' := if degree then deg2rad θz else θz
  a ᵥ* rot θx' θy' θz'

/-- Result of `compute_vectors`: in one dimension the flat list `[a]`, otherwise a square
array of row vectors. -/
inductive CellVectors where
  | one (a : ℝ)
  | two (v : Matrix (Fin 2) (Fin 2) ℝ)
  | three (v : Matrix (Fin 3) (Fin 3) ℝ)

/-- `compute_vectors(a, b, c, alpha, beta, gamma, decimals)`, spatial.py 281-312.
Missing angles or lengths that the branch needs raise `TypeError`.  Simplified: where NumPy
divides by a zero `by` or takes the root of a negative number (giving `nan`/`inf` with a
warning) the model has Lean's total operations; the theorems exclude these cases by
hypothesis. -/
def computeVectors (a : ℝ) (b c alpha beta gamma : Option ℝ) (decimals : ℕ) :
    Except PyErr CellVectors :=
  match b, c with
  | none, none => .ok (.one (if decimals ≠ 0 then npRound decimals a else a))
  | some b, none =>
    match alpha with
    | none => .error .type
    | some alpha =>
      let alpha := deg2rad alpha
      let ax := a
      let bx := b * Real.cos alpha
      let byy := b * Real.sin alpha
      let v : Matrix (Fin 2) (Fin 2) ℝ := !![ax, 0; bx, byy]
      .ok (.two (if decimals ≠ 0 then v.map (npRound decimals) else v))
  | some b, some c =>
    match alpha, beta, gamma with
    | some alpha, some beta, some gamma =>
      let alpha := deg2rad alpha
      let beta := deg2rad beta
      let gamma := deg2rad gamma
      let ax := a
      let bx := b * Real.cos gamma
      let byy := b * Real.sin gamma
      let cx := c * Real.cos beta
      let cy := (|c| * |b| * Real.cos alpha - bx * cx) / byy
      let cz := Real.sqrt (c ^ 2 - cx ^ 2 - cy ^ 2)
      let v : Matrix (Fin 3) (Fin 3) ℝ := !![ax, 0, 0; bx, byy, 0; cx, cy, cz]
      .ok (.three (if decimals ≠ 0 then v.map (npRound decimals) else v))
    | _, _, _ => .error .type
  | none, some _ => .error .type

end Lattpy

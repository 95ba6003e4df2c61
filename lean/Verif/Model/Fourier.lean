import Verif.Model.Structure
import Mathlib.Analysis.SpecialFunctions.Trigonometric.Basic

/-!
# Fourier weights

`LatticeStructure.fourier_weights`, structure.py 857-878.
-/

open Matrix

namespace Lattpy

/-- The array-like `k`: a number, a sequence of numbers, or a sequence of rows. -/
inductive WaveArg where
  | scalar (x : ℝ)
  | flat (k : List ℝ)
  | rows (ks : List (List ℝ))

namespace Structure
variable {d : ℕ}

/-- `np.inner(k, vecs)` for vectors of `d` components, flattened: a number multiplies every
component, otherwise the last axes are contracted, with a `ValueError` if their lengths differ. -/
noncomputable def npInner (vecs : List (Vec d ℝ)) : WaveArg → Except PyErr (List ℝ)
  | .scalar x => .ok (vecs.flatMap fun v => (List.finRange d).map fun i => x * v i)
  | .flat k => match (toVec k : Option (Vec d ℝ)) with
    | none => .error .value
    | some q => .ok (vecs.map fun v => q ⬝ᵥ v)
  | .rows ks => match ks.mapM (toVec : List ℝ → Option (Vec d ℝ)) with
    | none => .error .value
    | some qs => .ok (qs.flatMap fun q => vecs.map fun v => q ⬝ᵥ v)

/-- `fourier_weights(k, alpha, distidx)`, structure.py 857-878: `np.sum` without an axis adds up all
entries of the array. -/
noncomputable def fourierWeights (S : Structure d ℝ) (k : WaveArg) (alpha distidx : ℤ) :
    Except PyErr ℂ :=
  match S.getNeighborVectors alpha distidx false with
  | .error e => .error e
  | .ok vecs => match npInner vecs k with
    | .error e => .error e
    | .ok phases => .ok (phases.map fun t : ℝ => Complex.exp (Complex.I * (t : ℂ))).sum

end Structure

end Lattpy

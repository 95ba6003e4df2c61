import Verif.Model.Spatial
import Verif.Model.Real

/-!
# Model of `lattpy/shape.py` (regions and limits; no plotting)
-/

set_option autoImplicit false

namespace Lattpy

open Matrix

/-- The shapes of shape.py.
* `box size pos basis`: `Shape` (85-90), `basis i` is the `i`-th row of the array;
* `circle pos radius`: `Circle` (183-185);
* `donut pos outer inner`: `Donut` (228-230);
* `hull points equations`: `ConvexHull` (284-287), the points and the facet inequalities
  `(normal, offset)` computed by Qhull (external). -/
inductive AShape (d : ℕ) (K : Type*) where
  | box (size pos : Vec d K) (basis : Option (Matrix (Fin d) (Fin d) K))
  | circle (pos : Vec d K) (radius : K)
  | donut (pos : Vec d K) (outer inner : K)
  | hull (points : List (Vec d K)) (equations : List (Vec d K × K))

namespace AShape
variable {d : ℕ} {K : Type*} [Field K] [LinearOrder K]

/-- `Shape._build` corners, shape.py 92-94, 129-130: `itertools.product(*zip(zeros, size))`
shifted by `pos` and multiplied by the basis (`np.inner(corners, basis.T)`). -/
def corners (size pos : Vec d K) (basis : Option (Matrix (Fin d) (Fin d) K)) : List (Vec d K) :=
  let cs := (boxList fun k => [0, size k]).map fun c => pos + c
  match basis with
  | none => cs
  | some b => cs.map fun c => c ᵥ* b

/-- Column-wise minimum and maximum of a non-empty table: `[np.min(_, 0), np.max(_, 0)].T`;
`ValueError` for an empty one. -/
def minMax (rows : List (Vec d K)) : Except PyErr (Fin d → K × K) :=
  match rows with
  | [] => .error .value
  | v :: vs => .ok fun k => ((vs.map fun x => x k).foldl min (v k),
      (vs.map fun x => x k).foldl max (v k))

/-- `limits()`, shape.py 133-136, 187-190, 232-235, 289-291. -/
def limits : AShape d K → Except PyErr (Fin d → K × K)
  | box size pos basis => minMax (corners size pos basis)
  | circle pos radius => .ok fun k => (pos k + -radius, pos k + radius)
  | donut pos outer _ => .ok fun k => (pos k + -outer, pos k + outer)
  | hull points _ => minMax points

/-- `contains(points, tol)` for one point, shape.py 138-144, 192-194, 237-241, 293-301.
`np.linalg.inv` of a singular basis raises `LinAlgError`. -/
def contains [HasSqrt K] (s : AShape d K) (p : Vec d K) (tol : K) : Except PyErr Bool :=
  match s with
  | box size pos basis =>
    let inBox := fun q : Vec d K =>
      decide (∀ k, pos k - tol ≤ q k ∧ q k ≤ pos k + size k + tol)
    match basis with
    | none => .ok (inBox p)
    | some b =>
      if b.det = 0 then .error .linalg
      else .ok (inBox (p ᵥ* (b.det⁻¹ • b.adjugate)))
  | circle pos radius => .ok (decide (norm2 (p - pos) ≤ radius + tol))
  | donut pos outer inner =>
    .ok (decide (inner - tol ≤ norm2 (p - pos)) && decide (norm2 (p - pos) ≤ outer + tol))
  | hull _ equations => .ok (equations.all fun e => decide (p ⬝ᵥ e.1 + e.2 ≤ tol))

end AShape

end Lattpy

import Verif.Model.Spatial
import Verif.Model.Real
import Mathlib.Analysis.SpecialFunctions.Trigonometric.Basic

/-!
# Model of `lattpy/basis.py`
-/

set_option autoImplicit false

namespace Lattpy

open Matrix

/-- `LatticeBasis` (basis.py 30-99): `V` is `_vectors` (the basis vectors are its *columns*),
`Vinv` is `_vectors_inv`.  The cached cell size and volume are computed on demand. -/
structure LatticeBasis (d : ℕ) (K : Type*) where
  V : Matrix (Fin d) (Fin d) K
  Vinv : Matrix (Fin d) (Fin d) K

namespace LatticeBasis

section
variable {K : Type*} [Field K] [LinearOrder K] {d : ℕ}

/-- `LatticeBasis.__init__`, basis.py 91-99; `rows i` is the `i`-th basis vector.
`np.linalg.inv` raises `LinAlgError` for a singular matrix; for a regular one it is the
inverse, here computed by Cramer's rule. -/
def init (rows : Matrix (Fin d) (Fin d) K) : Except PyErr (LatticeBasis d K) :=
  let V := rowsᵀ
  if V.det = 0 then .error .linalg
  else .ok { V := V, Vinv := V.det⁻¹ • V.adjugate }

/-- `vectors`, basis.py 166-169: rows are the basis vectors. -/
def vectors (b : LatticeBasis d K) : Matrix (Fin d) (Fin d) K := b.Vᵀ

/-- `itransform`, basis.py 193-229 (`np.inner(x, M)` is `M x` for a vector `x`). -/
def itransform (b : LatticeBasis d K) (x : Vec d K) : Vec d K := b.Vinv *ᵥ x

/-- `transform`, basis.py 231-267. -/
def transform (b : LatticeBasis d K) (x : Vec d K) : Vec d K := b.V *ᵥ x

/-- `translate`, basis.py 269-325. -/
def translate (b : LatticeBasis d K) (n : Fin d → ℤ) (r : Vec d K) : Vec d K :=
  r + b.V *ᵥ fun i => (n i : K)

/-- `itranslate`, basis.py 327-358. -/
def itranslate [FloorRing K] (b : LatticeBasis d K) (x : Vec d K) : (Fin d → ℤ) × Vec d K :=
  let itrans := b.itransform x
  let nvec := fun i => ⌊itrans i⌋
  (nvec, x - b.translate nvec 0)

/-- `cell_size` property, basis.py 98, 183-186. -/
def cellSize {n : ℕ} (b : LatticeBasis (n + 1) K) : Vec (n + 1) K :=
  Lattpy.cellSize (K := K) fun i => b.vectors i

/-- `cell_volume` property, basis.py 99, 188-191. -/
def cellVolume [HasSqrt K] (b : LatticeBasis d K) : K := Lattpy.cellVolume b.vectors

/-- `vectors3d`, basis.py 171-176 (for `d ≤ 3`). -/
def vectors3d (b : LatticeBasis d K) : Matrix (Fin 3) (Fin 3) K :=
  (Matrix.of fun i j => if h : i.val < d ∧ j.val < d then b.V ⟨i, h.1⟩ ⟨j, h.2⟩
    else if i = j then 1 else 0)ᵀ

/-- `norms`, basis.py 178-181. -/
def norms [HasSqrt K] (b : LatticeBasis d K) : List K :=
  (List.finRange d).map fun i => norm2 (b.vectors i)

/-! ### neighbour cells -/

/-- `np.isclose(a, b)` with default tolerances. -/
def isclose (a b : K) : Bool := decide (|a - b| ≤ 1 / 10 ^ 8 + 1 / 10 ^ 5 * |b|)

/-- The searched factors, basis.py 519-521: `itertools.product(range(-m, m+1), repeat=dim)`
with `m = distidx + 1`. -/
def factors (d distidx : ℕ) : List (Fin d → ℤ) :=
  boxList fun _ : Fin d => (List.range (2 * (distidx + 1) + 1)).map fun i : ℕ =>
    (i : ℤ) - ((distidx : ℤ) + 1)

/-- `get_neighbor_cells`, basis.py 487-542.  `np.sort(np.unique(distances))[max_distidx]`
raises `IndexError` when there are not enough levels. -/
def getNeighborCells [HasSqrt K] (b : LatticeBasis d K) (distidx : ℕ) (includeOrigin : Bool)
    (comparison : K → K → Bool) : Except PyErr (List (Fin d → ℤ)) :=
  let facs := factors d distidx
  let dist : (Fin d → ℤ) → K := fun n => norm2 (b.translate n 0)
  let maxDistidx := distidx + (npUnique b.norms).length
  match (npUnique (facs.map dist))[maxDistidx]? with
  | none => .error .index
  | some maxdist =>
    let sel := facs.filter fun n => comparison (dist n) maxdist
    let hasOrigin := sel.any fun n => decide (n = 0)
    .ok (if includeOrigin && !hasOrigin then 0 :: sel
      else if !includeOrigin && hasOrigin then sel.filter fun n => decide (n ≠ 0)
      else sel)

end

/-! ### cell indices -/

/-- `[np.prod(shape[d+1:]) for d in range(dim)]`, basis.py 600, 630. -/
def tails : List ℤ → List ℤ
  | [] => []
  | _ :: s => s.prod :: tails s

/-- `get_cell_superindex` for one index, basis.py 576-603. -/
def getCellSuperindex (index shape : List ℤ) : ℤ := (List.zipWith (· * ·) index (tails shape)).sum

/-- The loop of `get_cell_index`, basis.py 628-632 (`divmod` is floor division). -/
def cellIndexLoop : List ℤ → ℤ → List ℤ
  | [], rest => [rest]
  | t :: ts, rest => rest.fdiv t :: cellIndexLoop ts (rest.fmod t)

/-- `get_cell_index` for one super-index, basis.py 605-634. -/
def getCellIndex (superIndex : ℤ) (shape : List ℤ) : List ℤ :=
  cellIndexLoop (tails shape).dropLast superIndex

/-! ### reciprocal lattice -/

section
variable {d : ℕ}

/-- `is_reciprocal`, basis.py 360-389 (the loop runs over `zip(self.vectors, vecs)`). -/
noncomputable def isReciprocal (b : LatticeBasis d ℝ) (vecs : List (Vec d ℝ)) (tol : ℝ) : Bool :=
  (((List.finRange d).map fun i => b.vectors i).zip vecs).all fun p =>
    !decide (tol < |p.1 ⬝ᵥ p.2 - 2 * Real.pi|)

/-- The candidate vectors before the sign fix, basis.py 430-436. -/
noncomputable def rvecs0 (b : LatticeBasis d ℝ) : Fin d → Vec d ℝ :=
  let a := b.vectors3d
  let factor := 2 * Real.pi / b.cellVolume
  let r : Fin 3 → Vec 3 ℝ :=
    ![factor • (a 1 ⨯₃ a 2), factor • (a 2 ⨯₃ a 0), factor • (a 0 ⨯₃ a 1)]
  fun i k => if h : i.val < 3 ∧ k.val < 3 then r ⟨i, h.1⟩ ⟨k, h.2⟩ else 0

/-- `reciprocal_vectors(tol, check)`, basis.py 391-451.  More than three dimensions do not
fit into `vectors3d` (`ValueError`).  The loop of lines 441-449 treats each row separately. -/
noncomputable def reciprocalVectors (b : LatticeBasis d ℝ) (tol : ℝ) (check : Bool) :
    Except PyErr (Matrix (Fin d) (Fin d) ℝ) :=
  if d = 1 then .ok (Matrix.of fun i j => 2 * Real.pi / b.vectors i j)
  else if 3 < d then .error .value
  else
    let rvecs := b.rvecs0
    let flip : Fin d → Bool := fun i => decide (|b.vectors i ⬝ᵥ rvecs i + 2 * Real.pi| ≤ tol)
    let bad : Fin d → Bool := fun i =>
      !flip i && check && decide (tol < |b.vectors i ⬝ᵥ rvecs i - 2 * Real.pi|)
    if (List.finRange d).any bad then .error .value
    else .ok (Matrix.of fun i => if flip i then -rvecs i else rvecs i)

/-- `reciprocal_lattice(min_negative)`, basis.py 454-485: the flag is passed on as the
tolerance (`False = 0`, `True = 1`). -/
noncomputable def reciprocalLattice (b : LatticeBasis d ℝ) (minNegative : Bool) :
    Except PyErr (LatticeBasis d ℝ) :=
  match b.reciprocalVectors (if minNegative then 1 else 0) false with
  | .ok r => init r
  | .error e => .error e

end

end LatticeBasis

end Lattpy

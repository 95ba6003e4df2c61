import Verif.Model.Real
import Verif.Model.Basis
import Verif.Model.Spatial

/-!
# Model of the Wigner-Seitz cells of `lattpy/basis.py`

`wigner_seitz_cell` and `brillouin_zone`, lines 544-574.  In two and more dimensions the vertices
come from `scipy.spatial.Voronoi` (Qhull), which is represented by an arbitrary function with the
contract `Qhull`.
-/

set_option autoImplicit false

namespace Lattpy

open Matrix

/-- The points do not all lie in one hyperplane. -/
def Spans {d : ℕ} (ps : List (Vec d ℝ)) : Prop :=
  ∀ (c : Vec d ℝ) (t : ℝ), c ≠ 0 → ∃ p ∈ ps, c ⬝ᵥ p ≠ t

/-- A Voronoi vertex of the points: the nearest points (all at the distance `ρ`) do not lie in a
hyperplane. -/
def IsVoronoiVertex {d : ℕ} (ps : List (Vec d ℝ)) (v : Vec d ℝ) : Prop :=
  ∃ ρ : ℝ, (∀ p ∈ ps, ρ ≤ distance v p) ∧
    ∀ (c : Vec d ℝ) (t : ℝ), c ≠ 0 → ∃ p ∈ ps, distance v p = ρ ∧ c ⬝ᵥ p ≠ t

/-- What is assumed of `scipy.spatial.Voronoi(points).vertices`, spatial.py 382-384: points in a
hyperplane are rejected (`QhullError`), for other points the array lists the Voronoi vertices
(order and repetitions are left open).  Exact arithmetic is assumed. -/
structure Qhull (d : ℕ) where
  voronoi : List (Vec d ℝ) → Except PyErr (List (Vec d ℝ))
  flat : ∀ ps, ¬ Spans ps → voronoi ps = .error .qhull
  full : ∀ ps, Spans ps → ∃ vs, voronoi ps = .ok vs ∧ ∀ v, v ∈ vs ↔ IsVoronoiVertex ps v

/-- `WignerSeitzCell(points)`, spatial.py 371-395 and 453-456, with the vertices. -/
noncomputable def WSCell.make {d : ℕ} (q : Qhull d) (points : List (Vec d ℝ)) :
    Except PyErr (WSCell d ℝ) :=
  if d = 1 then .ok ⟨points, voronoiVertices1 points⟩
  else match q.voronoi points with
    | .error e => .error e
    | .ok vs => .ok ⟨points, vs⟩

namespace LatticeBasis

/-- `wigner_seitz_cell()`, basis.py 544-554: the cell around the origin with respect to the
cells returned by `get_neighbor_cells(include_origin=True)`. -/
noncomputable def wignerSeitzCell {d : ℕ} (q : Qhull d) (b : LatticeBasis d ℝ) :
    Except PyErr (WSCell d ℝ) :=
  match b.getNeighborCells 0 true isclose with
  | .error e => .error e
  | .ok nvecs => WSCell.make q (nvecs.map fun n => b.translate n 0)

/-- `brillouin_zone(min_negative)`, basis.py 556-574: lines 572-573 are those of
`reciprocal_lattice` (the flag is passed on as the tolerance). -/
noncomputable def brillouinZone {d : ℕ} (q : Qhull d) (b : LatticeBasis d ℝ) (minNegative : Bool) :
    Except PyErr (WSCell d ℝ) :=
  match b.reciprocalLattice minNegative with
  | .error e => .error e
  | .ok rlatt => rlatt.wignerSeitzCell q

end LatticeBasis

end Lattpy

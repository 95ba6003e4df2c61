import Verif.Model.WignerSeitz
import Verif.Model.Utils

/-!
# Edges of a Voronoi cell and the symmetry points

`VoronoiTree.edges`, spatial.py 381-388, and `WignerSeitzCell.symmetry_points`, lines 505-530.  The
ridges come from `scipy.spatial.Voronoi` (Qhull), which is represented by an arbitrary function with
the contract `QhullRidges`.
-/

set_option autoImplicit false

namespace Lattpy

open Matrix

variable {d : ℕ}

/-- The ridge between the cells of `p` and `r`: the points at the same distance from both that are
not closer to any other point. -/
def ridge (ps : List (Vec d ℝ)) (p r : Vec d ℝ) : Set (Vec d ℝ) :=
  {x | distance x p = distance x r ∧ ∀ s ∈ ps, distance x p ≤ distance x s}

/-- The ridge is not contained in a set of lower dimension than the hyperplane between the two
points: the only linear functions that are constant on it are the multiples of `p - r`. -/
def FullRidge (ps : List (Vec d ℝ)) (p r : Vec d ℝ) : Prop :=
  p ∈ ps ∧ r ∈ ps ∧ p ≠ r ∧
    ∀ (c : Vec d ℝ) (t : ℝ), (∀ x ∈ ridge ps p r, c ⬝ᵥ x = t) → ∃ s : ℝ, c = s • (p - r)

/-- All components of the points of the set are at most `M` in size. -/
def FiniteRidge (F : Set (Vec d ℝ)) : Prop := ∃ M : ℝ, ∀ x ∈ F, ∀ k, |x k| ≤ M

/-- What is assumed of `zip(vor.ridge_points, vor.ridge_vertices)` with respect to the points `ps`
and the vertices `vs`: every ridge is listed once, with the numbers of its vertices in any order, and
`-1` if it is unbounded. -/
structure RidgeSpec (ps vs : List (Vec d ℝ)) (rs : List ((Vec d ℝ × Vec d ℝ) × List ℤ)) : Prop where
  full : ∀ e ∈ rs, FullRidge ps e.1.1 e.1.2
  range : ∀ e ∈ rs, ∀ i ∈ e.2, -1 ≤ i ∧ i < vs.length
  unbounded : ∀ e ∈ rs, (-1 ∈ e.2 ↔ ¬ FiniteRidge (ridge ps e.1.1 e.1.2))
  vertices : ∀ e ∈ rs, ∀ v, (∃ i : ℕ, (i : ℤ) ∈ e.2 ∧ vs[i]? = some v) ↔
    v ∈ vs ∧ v ∈ ridge ps e.1.1 e.1.2
  distinct : ∀ e ∈ rs, e.2.Nodup ∧
    ∀ i j : ℕ, (i : ℤ) ∈ e.2 → (j : ℤ) ∈ e.2 → vs[i]? = vs[j]? → i = j
  complete : ∀ p r, FullRidge ps p r → ∃ e ∈ rs, e.1 = (p, r) ∨ e.1 = (r, p)
  once : rs.Pairwise fun e e' => e.1 ≠ e'.1 ∧ e.1 ≠ e'.1.swap

/-- The ridges returned by Qhull beside the vertices `q.voronoi`. -/
structure QhullRidges (q : Qhull d) where
  ridges : List (Vec d ℝ) → List ((Vec d ℝ × Vec d ℝ) × List ℤ)
  spec : ∀ ps vs, q.voronoi ps = .ok vs → RidgeSpec ps vs (ridges ps)

/-- `edges`, spatial.py 374-388: the ridges without a vertex at infinity; empty in one dimension. -/
def QhullRidges.edges {q : Qhull d} (R : QhullRidges q) (ps : List (Vec d ℝ)) : List (List ℕ) :=
  if d = 1 then []
  else ((R.ridges ps).filter fun e => e.2.all fun i => decide (0 ≤ i)).map
    fun e => e.2.map Int.toNat

/-- The return value of `symmetry_points`; `none` stands for `None`. -/
structure SymPoints (d : ℕ) where
  origin : Vec d ℝ
  corners : List (Vec d ℝ)
  edgeCenters : Option (List (Vec d ℝ))
  faceCenters : Option (List (Vec d ℝ))

namespace WSCell

/-- `self.vertices[i]`. -/
def vertex (w : WSCell d ℝ) (i : ℕ) : Except PyErr (Vec d ℝ) :=
  match w.vertices[i]? with
  | none => .error .index
  | some v => .ok v

/-- `self.vertices[simplex]`, spatial.py 514 and 520. -/
def simplexVertices (w : WSCell d ℝ) (simplex : List ℕ) : Except PyErr (List (Vec d ℝ)) :=
  simplex.mapM w.vertex

/-- `p1 + (p2 - p1) / 2`, spatial.py 515 and 525. -/
noncomputable def midpoint (p1 p2 : Vec d ℝ) : Vec d ℝ := fun k => p1 k + (p2 k - p1 k) / 2

/-- `np.mean(edges, axis=0)`, spatial.py 522. -/
noncomputable def mean (vs : List (Vec d ℝ)) : Vec d ℝ := fun k => (vs.map (· k)).sum / vs.length

/-- One round of the loop in lines 513-515: unpacking raises `ValueError` unless there are two
vertices. -/
noncomputable def edgeCenter2 (w : WSCell d ℝ) (simplex : List ℕ) : Except PyErr (Vec d ℝ) :=
  match w.simplexVertices simplex with
  | .error e => .error e
  | .ok [p1, p2] => .ok (midpoint p1 p2)
  | .ok _ => .error .value

/-- One round of the loop in lines 519-525: the face centre and the edge centres of one face. -/
noncomputable def faceCenter3 (w : WSCell d ℝ) (simplex : List ℕ) :
    Except PyErr (Vec d ℝ × List (Vec d ℝ)) :=
  match w.simplexVertices simplex with
  | .error e => .error e
  | .ok vs =>
    match chain vs true with
    | .error e => .error e
    | .ok l => .ok (mean vs, l.map fun p => midpoint p.1 p.2)

/-- `symmetry_points()`, spatial.py 505-530, for a cell with the given `edges`. -/
noncomputable def symmetryPoints (w : WSCell d ℝ) (edges : List (List ℕ)) :
    Except PyErr (SymPoints d) :=
  if d = 1 then .ok ⟨0, w.vertices, none, none⟩
  else if d = 2 then
    match edges.mapM w.edgeCenter2 with
    | .error e => .error e
    | .ok cs => .ok ⟨0, w.vertices, some cs, none⟩
  else if d = 3 then
    match edges.mapM w.faceCenter3 with
    | .error e => .error e
    | .ok cs => .ok ⟨0, w.vertices, some (cs.flatMap (·.2)), some (cs.map (·.1))⟩
  else .error .notImplemented

end WSCell

end Lattpy

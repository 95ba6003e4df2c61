import Verif.Model.Shape
import Mathlib.Analysis.SpecialFunctions.Trigonometric.Basic

/-!
# Model of what the shapes of `lattpy/shape.py` draw

`Shape.plot`, `Circle.plot` and `Donut.plot`, lines 92-131, 146-157, 196-202 and 243-258.  A drawing
consists of polygonal lines, circles, filled polygons and filled discs in the coordinates of the lattice.
Not modelled: colours, line widths, transparency, `ConvexHull.plot` (it draws the facets listed by Qhull).
-/

set_option autoImplicit false

namespace Lattpy

/-- What the method `plot` of a shape draws: lines through the listed points, circles with centre and
radius, and the filled areas (closed polygons and discs). -/
structure ShapeDrawing (d : ℕ) where
  lines : List (List (Vec d ℝ))
  circles : List (Vec d ℝ × ℝ)
  areas : List (List (Vec d ℝ))
  discs : List (Vec d ℝ × ℝ)

namespace AShape

/-- The edges of `Shape._build`, shape.py 95-117 (`None` except in two and three dimensions). -/
def boxEdges (d : ℕ) : Option (List (List ℕ)) :=
  if d = 2 then some [[0, 1], [0, 2], [2, 3], [3, 1]]
  else if d = 3 then some [[0, 2], [2, 3], [3, 1], [1, 0], [4, 6], [6, 7], [7, 5], [5, 4],
    [0, 4], [2, 6], [3, 7], [1, 5]]
  else none

/-- The surfaces of `Shape._build`, shape.py 96-128. -/
def boxSurfaces (d : ℕ) : Option (List (List ℕ)) :=
  if d = 2 then some [[0, 1, 3, 2, 0]]
  else if d = 3 then some [[0, 2, 3, 1], [4, 6, 7, 5], [0, 4, 6, 2], [2, 6, 7, 3], [3, 7, 5, 1],
    [1, 5, 4, 0]]
  else none

/-- `corners[i]`. -/
def cornerAt {d : ℕ} (corners : List (Vec d ℝ)) (i : ℕ) : Except PyErr (Vec d ℝ) :=
  match corners[i]? with
  | some c => .ok c
  | none => .error .index

/-- `corners[indices]` for a table of indices, shape.py 148 and 150. -/
def takeCorners {d : ℕ} (corners : List (Vec d ℝ)) (indices : List (List ℕ)) :
    Except PyErr (List (List (Vec d ℝ))) :=
  indices.mapM fun row => row.mapM (cornerAt corners)

/-- `Shape.plot(ax)`, shape.py 146-157.  Without edges (`None`) `corners[None]` is one segment through
all corners; Matplotlib rejects it in one dimension and `draw_lines` (plotting.py 245) in more than
three: `ValueError` in both cases. -/
noncomputable def plotBox {d : ℕ} (size pos : Vec d ℝ) (basis : Option (Matrix (Fin d) (Fin d) ℝ)) :
    Except PyErr (ShapeDrawing d) :=
  match boxEdges d, boxSurfaces d with
  | some edges, some surfs =>
    match takeCorners (corners size pos basis) edges, takeCorners (corners size pos basis) surfs with
    | .ok lines, .ok areas => .ok ⟨lines, [], areas, []⟩
    | .error e, _ => .error e
    | _, .error e => .error e
  | _, _ => .error .value

/-- The rows of `np.outer(radii, np.cos(theta))` and `np.outer(radii, np.sin(theta))` with
`theta = np.linspace(0, 2 * np.pi, 100)`, shape.py 244-248, as a list of points. -/
noncomputable def ringPoints (radius : ℝ) : List (Vec 2 ℝ) :=
  (List.range 100).map fun k : ℕ => ![radius * Real.cos (k * (2 * Real.pi) / 99),
    radius * Real.sin (k * (2 * Real.pi) / 99)]

/-- `Donut.plot(ax)`, shape.py 243-258: the second row is reversed, the area runs along both. -/
noncomputable def plotDonut (outer inner : ℝ) : ShapeDrawing 2 :=
  let xs := [ringPoints inner, (ringPoints outer).reverse]
  ⟨xs, [], [xs.flatten], []⟩

/-- `plot(ax)` in the plane, shape.py 146-157, 196-202, 243-258.  (`ConvexHull.plot` is not modelled,
`none`.) -/
noncomputable def plot2 : AShape 2 ℝ → Option (Except PyErr (ShapeDrawing 2))
  | box size pos basis => some (plotBox size pos basis)
  | circle pos radius => some (.ok ⟨[], [(pos, radius)], [], [(pos, radius)]⟩)
  | donut _ outer inner => some (.ok (plotDonut outer inner))
  | hull _ _ => none

end AShape

end Lattpy

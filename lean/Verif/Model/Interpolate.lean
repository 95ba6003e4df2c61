import Verif.Model.Grid

/-!
# Model of `interpolate_to_grid` (plotting.py 703-720)
-/

set_option autoImplicit false

namespace Lattpy

variable {K : Type*} [Field K] [LinearOrder K]

/-- `scipy.interpolate.griddata(points, values, xi, method, fill_value)` for one method: from the points
and values an interpolating function is made, or an exception is raised (too few points, points on a
line, different numbers of points and values).  `none` means that a query point is outside of the convex
hull of the points; then the result is `fill_value`. -/
structure Griddata (K : Type*) where
  interp : (points : List (K × K)) → (values : List K) → Except PyErr (K → K → Option K)

/-- The three arrays returned by `interpolate_to_grid`, as lists of rows. -/
structure GridTables (K : Type*) where
  xx : List (List K)
  yy : List (List K)
  zz : List (List K)

/-- `min(x)` and `max(x)` of a sequence (`ValueError` if it is empty). -/
def minMaxList (x : List K) : Except PyErr (K × K) :=
  match x with
  | [] => .error .value
  | a :: l => .ok (l.foldl min a, l.foldl max a)

/-- `interpolate_to_grid(positions, values, num, offset, method, fill_value)`, plotting.py 703-720.
`x, y = positions.T` raises `ValueError` unless there are two coordinates.  `np.meshgrid(xi, yi)` has one
row for every entry of `yi`; `griddata` is called with the arrays `xi[None, :]` and `yi[:, None]`, so that
entry `(j, i)` of its result belongs to the query point `(xi[i], yi[j])`. -/
def interpolateToGrid {d : ℕ} (g : Griddata K) (positions : List (Vec d K)) (values : List K)
    (num : ℤ × ℤ) (offset : K × K) (fill : K) : Except PyErr (GridTables K) :=
  match (List.finRange d).map fun k => positions.map fun p => p k with
  | [x, y] => match minMaxList x with
    | .error e => .error e
    | .ok (x0, x1) => match npLinspace (x0 - offset.1) (x1 + offset.1) num.1 true with
      | .error e => .error e
      | .ok xi => match minMaxList y with
        | .error e => .error e
        | .ok (y0, y1) => match npLinspace (y0 - offset.2) (y1 + offset.2) num.2 true with
          | .error e => .error e
          | .ok yi => match g.interp (x.zip y) values with
            | .error e => .error e
            | .ok f => .ok {
                xx := yi.map fun _ => xi
                yy := yi.map fun y => xi.map fun _ => y
                zz := yi.map fun y => xi.map fun x => (f x y).getD fill }
  | _ => .error .value

end Lattpy

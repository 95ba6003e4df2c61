import Verif.Model.WignerSeitz

/-!
# Grids of vectors

`vrange` (spatial.py 167-221) and the grids of Wigner-Seitz cells (spatial.py 472-503).  All vectors
have the same number `d` of components (Python truncates sequences of different lengths to the
shortest one); `dtype` is left at its default.
-/

set_option autoImplicit false

namespace Lattpy

variable {d : ℕ} {K : Type*} [Field K] [LinearOrder K] [FloorRing K]

/-- The number of values of the slice `start:stop:step` in `np.mgrid`:
`int(math.ceil((stop - start) / (step * 1.0)))`.  A zero step makes the quotient infinite
(`OverflowError`) or undefined (`ValueError`). -/
def sliceSize (start stop step : K) : Except PyErr ℤ :=
  if step = 0 then (if stop = start then .error .value else .error .overflow)
  else .ok ⌈(stop - start) / step⌉

/-- `vrange(start, stop, step, sort_axis)`, spatial.py 167-221: `np.mgrid` counts on every axis,
multiplies by the step and adds the start; negative sizes are a `ValueError`, as is the `reshape` for
no axes.  With `sort_axis` the rows are stably sorted by that column (lines 217-218). -/
def vrange (start stop step : Vec d K) (sortAxis : Option (Fin d)) : Except PyErr (List (Vec d K)) :=
  match (List.finRange d).mapM fun k => sliceSize (start k) (stop k) (step k) with
  | .error e => .error e
  | .ok sizes =>
    if d = 0 ∨ ∃ n ∈ sizes, n < 0 then .error .value
    else
      let grid := boxList fun k => List.range ⌈(stop k - start k) / step k⌉.toNat
      let array := grid.map fun i k => (i k : K) * step k + start k
      .ok (match sortAxis with
        | none => array
        | some ax => stableSortBy (fun v => v ax) array)

/-- `vrange(stop)`, spatial.py 196-199: from zero with the step one, sorted by the first column. -/
def vrangeStop (hd : 0 < d) (stop : Vec d K) : Except PyErr (List (Vec d K)) :=
  vrange 0 stop (fun _ => 1) (some ⟨0, hd⟩)

/-- `np.linspace(lo, hi, num, endpoint)`; a negative number of points is a `ValueError`. -/
def npLinspace (lo hi : K) (num : ℤ) (endpoint : Bool) : Except PyErr (List K) :=
  if num < 0 then .error .value
  else
    let div := if endpoint then num - 1 else num
    .ok ((List.range num.toNat).map fun i : ℕ =>
      if div ≤ 0 then lo else lo + (i : K) * ((hi - lo) / (div : K)))

/-- `np.arange(lo, hi, step)` for floating point numbers; a zero step is a `ValueError`. -/
def arange (lo hi step : K) : Except PyErr (List K) :=
  if step = 0 then .error .value
  else .ok ((List.range ⌈(hi - lo) / step⌉.toNat).map fun i : ℕ => lo + (i : K) * step)

namespace WSCell

/-- `limits * (1 + offset)`, spatial.py 473 and 478. -/
def scaledLimits (w : WSCell d K) (offset : K) : Except PyErr (Fin d → K × K) :=
  match w.limits with
  | .error e => .error e
  | .ok l => .ok fun k => ((l k).1 * (1 + offset), (l k).2 * (1 + offset))

/-- How a grid is specified: `nums`, `steps` or neither. -/
inductive GridArg (d : ℕ) (K : Type*) where
  | nums (n : Fin d → ℤ)
  | steps (s : Vec d K)
  | none

/-- `linspace(nums, offset, endpoint)` and `arange(steps, offset)` for one axis, spatial.py
472-483. -/
def axisValues (arg : GridArg d K) (endpoint : Bool) (l : Fin d → K × K) (k : Fin d) :
    Except PyErr (List K) :=
  match arg with
  | .nums n => npLinspace (l k).1 (l k).2 (n k) endpoint
  | .steps s => arange (l k).1 (l k).2 (s k)
  | .none => .error .value

/-- The list of the axes, with the first two exchanged as by `np.meshgrid` (`indexing="xy"`). -/
def xySwap (k : Fin d) : Fin d :=
  if h : 1 < d then Equiv.swap ⟨0, by omega⟩ ⟨1, h⟩ k else k

/-- `meshgrid(nums, steps, offset, check, endpoint)`, spatial.py 485-503: the vectors of the grid in
the order of the positions of the arrays (the last axis varies fastest); `none` is a vector of NaN.
Without `nums` and `steps` the call is a `ValueError` before the limits are looked at. -/
def meshgrid (env : Env K) [HasSqrt K] (w : WSCell d K) (arg : GridArg d K) (offset : K)
    (check endpoint : Bool) : Except PyErr (List (Option (Vec d K))) :=
  match arg with
  | .none => .error .value
  | arg => match w.scaledLimits offset with
    | .error e => .error e
    | .ok l => match (List.finRange d).mapM (axisValues arg endpoint l) with
      | .error e => .error e
      | .ok axes =>
        let grid := (boxList fun k => (axes[(xySwap k).val]?).getD []).map fun v k => v (xySwap k)
        .ok (grid.map fun v => if check && !w.check env v then none else some v)

end WSCell

end Lattpy

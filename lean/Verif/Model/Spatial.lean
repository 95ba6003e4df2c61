import Verif.Np
import Verif.Model.Utils
import Mathlib.LinearAlgebra.CrossProduct
import Mathlib.LinearAlgebra.Matrix.Adjugate

/-!
# Model of `lattpy/spatial.py`

Everything except plotting.  Trigonometric functions live in `Verif/Model/Rotation.lean`
(they need the reals); here scalars are an arbitrary ordered field.
-/

set_option autoImplicit false

namespace Lattpy

open Matrix

section
variable {K : Type*} [Field K]

/-- Euclidean length `np.sqrt(np.sum(np.square(x)))` / `np.linalg.norm(x)`. -/
def norm2 [HasSqrt K] {d : ℕ} (x : Vec d K) : K := HasSqrt.sqrt (∑ i, x i * x i)

/-- `distance(r1, r2, decimals)`, spatial.py 43-63. (`round` of Python and `np.round` are
both round-half-even.) -/
def distance [LinearOrder K] [FloorRing K] [HasSqrt K] {d : ℕ} (r1 r2 : Vec d K)
    (decimals : Option ℕ := none) : K :=
  let dist := HasSqrt.sqrt (∑ i, (r1 i - r2 i) * (r1 i - r2 i))
  match decimals with
  | none => dist
  | some n => npRound n dist

/-- `distances(r1, r2, decimals)`, spatial.py 66-88, for arrays with equally many rows;
a single row (`np.atleast_2d` of a vector) is broadcast against all rows of the other
argument; other shapes do not broadcast (`ValueError`). -/
def distances [LinearOrder K] [FloorRing K] [HasSqrt K] {d : ℕ} (r1 r2 : List (Vec d K))
    (decimals : Option ℕ := none) : Except PyErr (List K) :=
  if r1.length = r2.length then .ok (List.zipWith (distance · · decimals) r1 r2)
  else match r1, r2 with
    | [x], ys => .ok (ys.map fun y => distance x y decimals)
    | xs, [y] => .ok (xs.map fun x => distance x y decimals)
    | _, _ => .error .value

end

/-! ## interweave -/

/-- Number of slots of `result[i::n]` for a result of the given length. -/
def slots (total i n : ℕ) : ℕ := (total - i + n - 1) / n

/-- `result[i::n] = arr` (spatial.py 115): write the rows of `arr` to every `n`-th slot of
`result` starting at slot `i`.  As in NumPy the number of rows must be the number of slots,
or one (then the row is broadcast); otherwise `ValueError`. -/
def setStrided {α : Type*} (i n : ℕ) (arr : List α) (result : List (Option α)) :
    Except PyErr (List (Option α)) :=
  if arr.length = slots result.length i n ∨ arr.length = 1 then
    .ok ((List.range result.length).map fun k =>
      if i ≤ k ∧ (k - i) % n = 0 then arr[if arr.length = 1 then 0 else (k - i) / n]?
      else (result[k]?).join)
  else .error .value

/-- The loop of `interweave` (spatial.py 114-115) from array number `i` on. -/
def interweaveLoop {α : Type*} (n : ℕ) : (i : ℕ) → (arrays : List (List α)) →
    (result : List (Option α)) → Except PyErr (List (Option α))
  | _, [], result => .ok result
  | i, arr :: arrays, result =>
    match setStrided i n arr result with
    | .ok r => interweaveLoop n (i + 1) arrays r
    | .error e => .error e

/-- `interweave(arrays)`, spatial.py 91-116.  The freshly allocated `np.empty` array is a
list of `none` (uninitialised) entries.  An empty sequence has no `arrays[0]`
(`IndexError`).  Rows are opaque values (all of the same shape). -/
def interweave {α : Type*} (arrays : List (List α)) : Except PyErr (List (Option α)) :=
  if arrays.isEmpty then .error .index
  else interweaveLoop arrays.length 0 arrays
    (List.replicate (arrays.map List.length).sum none)

/-! ## vindices -/

/-- Storing an integer in a signed two's complement type of the given width. -/
def wrapSigned (bits : ℕ) (x : ℤ) : ℤ := Int.bmod x (2 ^ bits)

/-- Storing an index in the index type of `vindices` (spatial.py 140-141): `some w` is a
signed type of width `w` given by the caller, `none` the default type
`min_dtype(limits, signed=True)`; NumPy's `object` type (beyond 64 bit) does not wrap. -/
def indexWrap {d : ℕ} (limits : Fin d → ℤ × ℤ) (bits : Option ℕ) : ℤ → ℤ :=
  match bits with
  | some w => wrapSigned w
  | none =>
    match minDtype ((List.finRange d).flatMap fun k => [(limits k).1, (limits k).2]) true with
    | some t => wrapSigned t.bits
    | none => id

/-- `vindices(limits, sort_axis, dtype)`, spatial.py 119-163.
`bits` is the width of the (signed) index type (`none`: the default `dtype=None`).
`np.indices(size, dtype)` counts `0, 1, ..., size-1` *in the index type* on every axis
(wrapping around when the type is too small) and raises `ValueError` for negative sizes;
the lower limits (64-bit) are added afterwards (line 157).  With `sort_axis` the rows are
stably sorted by that column (line 161). -/
def vindices {d : ℕ} (limits : Fin d → ℤ × ℤ) (sortAxis : Option (Fin d))
    (bits : Option ℕ) : Except PyErr (List (Fin d → ℤ)) :=
  let size : Fin d → ℤ := fun k => (limits k).2 - (limits k).1
  if (List.finRange d).any (fun k => decide (size k < 0)) then .error .value
  else
    let grid := boxList fun k => (List.range (size k).toNat).map fun i : ℕ => indexWrap limits bits (i : ℤ)
    let nvecs := grid.map fun v k => v k + (limits k).1
    .ok (match sortAxis with
      | none => nvecs
      | some ax => stableSortBy (fun v => v ax) nvecs)

/-! ## cell size and volume -/

section
variable {K : Type*} [LinearOrder K]

/-- Maximum of the entries of a non-empty vector (`np.max(..., axis=0)` of a column). -/
def vmax {n : ℕ} (x : Fin (n + 1) → K) : K :=
  (List.ofFn x).foldl max (x 0)

/-- Minimum of the entries of a non-empty vector. -/
def vmin {n : ℕ} (x : Fin (n + 1) → K) : K :=
  (List.ofFn x).foldl min (x 0)

end

section
variable {K : Type*} [Field K] [LinearOrder K]

/-- `cell_size(vectors)`, spatial.py 225-240; `vectors i` is the `i`-th basis vector. -/
def cellSize {d n : ℕ} (vectors : Fin (n + 1) → Vec d K) : Vec d K := fun k =>
  let maxv := vmax fun i => vectors i k
  let minv := vmin fun i => vectors i k
  let minv := if 0 < minv then 0 else minv
  maxv - minv

/-- `cell_volume(vectors)`, spatial.py 243-278 (rows are the basis vectors): the branches
for 1, 2 and 3 dimensions and the general one. -/
def cellVolume [HasSqrt K] : {d : ℕ} → Matrix (Fin d) (Fin d) K → K
  | 1, v => |v 0 0|
  | 2, v => |v 0 0 * v 1 1 - v 0 1 * v 1 0|
  | 3, v => |v 0 ⬝ᵥ (v 1 ⨯₃ v 2)|
  | _, v => |HasSqrt.sqrt (Matrix.det (vᵀ * v))|

end

/-! ## KDTree -/

section
variable {K : Type*} [Field K] [LinearOrder K] [FloorRing K] [HasSqrt K]

/-- Result of a neighbour query: table of neighbour indices and table of distances
(`inf = ⊤`), one row per query point. -/
structure QueryResult (K : Type*) where
  neighbors : List (List ℕ)
  dists : List (List (WithTop K))

/-- Keep the columns of a table selected by `mask`: `a[:, mask]`. -/
def maskCols {α : Type*} (mask : List Bool) (rows : List (List α)) : List (List α) :=
  rows.map fun r => ((r.zip mask).filter fun p => p.2).map fun p => p.1

/-- `np.any(dists != np.inf, axis=0)` for a table with `w` columns. -/
def anyFiniteCols (w : ℕ) (dists : List (List (WithTop K))) : List Bool :=
  (List.range w).map fun c => dists.any fun r => match r[c]? with
    | some x => decide (x ≠ ⊤)
    | none => false

/-- Distance of data point `i` of a tree to the query point `q` (0 for invalid `i`, which the
query never asks for). -/
def pointDist {d : ℕ} (points : List (Vec d K)) (q : Vec d K) (i : ℕ) : K :=
  match points[i]? with
  | some p => distance p q
  | none => 0

/-- `KDTree.query(x, num_jobs, decimals, include_zero, compact)`, spatial.py 338-368, for a
tree over `points` built with parameters `k` and `max_dist` (`eps = 0`, `p = 2`).
The library query is `env.knn`.  For `k = 1` see `kdTreeQuery`; the library itself always queries with
`k ≥ 2` (`IsAnalysis.queryParams`). -/
def kdQuery {d : ℕ} (env : Env K) (points : List (Vec d K)) (k : ℕ) (maxDist : WithTop K)
    (x : List (Vec d K)) (decimals : Option ℕ) (includeZero compact : Bool) :
    QueryResult K :=
  -- lines 342-344: `super().query(...)`, one row per query point
  let raw := x.map fun q => env.knn points.length (pointDist points q) k maxDist
  let dists := raw.map fun r => r.map Prod.fst
  let neighbors := raw.map fun r => r.map Prod.snd
  -- lines 347-349: drop the first column if all its distances are zero
  let drop := !includeZero && dists.all (fun r => r.head? == some (0 : WithTop K))
  let dists := if drop then dists.map (List.drop 1) else dists
  let neighbors := if drop then neighbors.map (List.drop 1) else neighbors
  let w := if drop then k - 1 else k
  -- lines 353-356: invalidate entries beyond max_dist
  let rows := List.zipWith (fun nr dr => List.zipWith (fun n e =>
    if maxDist < ⊤ ∧ maxDist < e then (points.length, (⊤ : WithTop K)) else (n, e)) nr dr)
    neighbors dists
  let neighbors := rows.map fun r => r.map Prod.fst
  let dists := rows.map fun r => r.map Prod.snd
  -- lines 359-362: remove columns without valid entries
  let mask := anyFiniteCols w dists
  let neighbors := if compact then maskCols mask neighbors else neighbors
  let dists := if compact then maskCols mask dists else dists
  -- lines 365-366: round the distances
  let dists := match decimals with
    | none => dists
    | some n => dists.map fun r => r.map (npRoundTop n)
  { neighbors := neighbors, dists := dists }

/-- `KDTree(points, k, max_dist).query(x, ...)`, spatial.py 338-368, for an array `x` of points.
For `k = 1` the library returns one-dimensional arrays: `dists[:, 0]` (line 347) then raises
`IndexError`, unless `include_zero` skips it.  With `include_zero` and `compact` the scalar mask of
line 360 restores the column; with `compact=False` the result stays one-dimensional (here: rows of
one entry). -/
def kdTreeQuery {d : ℕ} (env : Env K) (points : List (Vec d K)) (k : ℕ) (maxDist : WithTop K)
    (x : List (Vec d K)) (decimals : Option ℕ) (includeZero compact : Bool) :
    Except PyErr (QueryResult K) :=
  if k = 1 ∧ includeZero = false then .error .index
  else .ok (kdQuery env points k maxDist x decimals includeZero compact)

/-! ## Wigner-Seitz cells -/

/-- `VoronoiTree.__init__` in one dimension, spatial.py 376-380: the vertices are the halved
points without the zero.  (Stated for every `d`, called for `d = 1` only.) -/
def voronoiVertices1 {d : ℕ} (points : List (Vec d K)) : List (Vec d K) :=
  (points.map fun p k => p k / 2).filter fun v => decide (v ≠ 0)

/-- `WignerSeitzCell`, spatial.py 371-395 and 453-456: the points and the Voronoi vertices.
In one dimension the vertices are `voronoiVertices1 points`, otherwise they come from
Qhull (not modelled: any list). -/
structure WSCell (d : ℕ) (K : Type*) where
  points : List (Vec d K)
  vertices : List (Vec d K)

namespace WSCell
variable {d : ℕ}

/-- `query(x)[1]` with `k=1`, spatial.py 397-398: the index of the nearest point; the number
of points if there is none. -/
def nearest (env : Env K) (w : WSCell d K) (x : Vec d K) : ℕ :=
  match (env.knn w.points.length (pointDist w.points x) 1 ⊤).head? with
  | some p => p.2
  | none => w.points.length

/-- `_root`, spatial.py 456. -/
def root (env : Env K) (w : WSCell d K) : ℕ := w.nearest env 0

/-- `check(points)` for one point, spatial.py 468-470. -/
def check (env : Env K) (w : WSCell d K) (x : Vec d K) : Bool :=
  decide (w.nearest env x = w.root env)

/-- `limits`, spatial.py 458-462; `ValueError` without vertices. -/
def limits (w : WSCell d K) : Except PyErr (Fin d → K × K) :=
  match w.vertices with
  | [] => .error .value
  | v :: vs => .ok fun k => (vs.foldl (fun m x => min m (x k)) (v k),
      vs.foldl (fun m x => max m (x k)) (v k))

/-- `size = limits[1] - limits[0]`, spatial.py 464-466: `limits` has one *row* per axis, so
this is the difference of the first two rows (`IndexError` in one dimension). -/
def size (w : WSCell d K) : Except PyErr (K × K) :=
  match w.limits with
  | .error e => .error e
  | .ok l =>
    if h : 1 < d then .ok ((l ⟨1, h⟩).1 - (l ⟨0, by omega⟩).1, (l ⟨1, h⟩).2 - (l ⟨0, by omega⟩).2)
    else .error .index

end WSCell

end

end Lattpy

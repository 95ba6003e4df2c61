import Verif.Model.Spatial

/-!
# Model of `lattpy/data.py`

`LatticeData` is a record of parallel tables with exactly the attributes of the Python class.
Site and slot numbers are natural numbers (negative Python indices are not modelled).
-/

set_option autoImplicit false

namespace Lattpy

/-! ## Array helpers -/

/-- `a[perm]` (fancy indexing of rows); out-of-range positions, on which NumPy raises, are
skipped (callers check). -/
def gather {α : Type*} (l : List α) (perm : List ℕ) : List α := perm.filterMap fun i => l[i]?

/-- Cut a flat list into rows of the same lengths as the rows of a table (`reshape`). -/
def splitLike {α β : Type*} : List (List α) → List β → List (List β)
  | [], _ => []
  | r :: rs, flat => flat.take r.length :: splitLike rs (flat.drop r.length)

/-- `a[:, mask]` for one row: the entries where the mask is true. -/
def maskRow {α : Type*} (row : List α) (mask : List Bool) : List α :=
  ((row.zip mask).filter fun p => p.2).map fun p => p.1

/-- `row[i0:i1] = new` where the slice has exactly as many entries as `new`. -/
def writeSlice {α : Type*} (row : List α) (i0 : ℕ) (new : List α) : List α :=
  row.take i0 ++ new ++ row.drop (i0 + new.length)

/-- Replace row `i` of a table. -/
def modifyRow {α : Type*} (rows : List α) (i : ℕ) (f : α → α) : List α :=
  rows.modify i f

/-! ## DataMap -/

/-- `DataMap`: element `k` has mark `map[k]` (`-alpha-1` onsite, distance level otherwise) and
position `indices[k]` (row, column). -/
structure DataMap where
  map : List ℤ
  indices : List (ℕ × ℕ)
  deriving DecidableEq

namespace DataMap

/-- `DataMap.__init__`, data.py 45-51.  `np.argsort` of the rows is `argsort`.  The atom numbers are of
type `int8` (data.py 620), so `-alphas - 1` is computed with 8 bits; joining them with the levels
(unsigned or wider) gives a wider type. -/
def init (argsort : List ℕ → List ℕ) (alphas : List ℤ) (pairs : List (ℕ × ℕ))
    (distindices : List ℕ) : DataMap :=
  let map := alphas.map (fun a => wrapSigned 8 (-a - 1)) ++ distindices.map fun x : ℕ => (x : ℤ)
  let indices := (List.range alphas.length).map (fun i => (i, i)) ++ pairs
  let ind := argsort (indices.map Prod.fst)
  { map := gather map ind, indices := gather indices ind }

/-- `size`, data.py 53-56. -/
def size (m : DataMap) : ℕ := m.indices.length

/-- `rows`, data.py 63-66. -/
def rows (m : DataMap) : List ℕ := m.indices.map Prod.fst

/-- `cols`, data.py 68-71. -/
def cols (m : DataMap) : List ℕ := m.indices.map Prod.snd

/-- One step of the loop of `indices_indptr`, data.py 101-104. -/
def indptrStep (m : DataMap) (acc : List ℕ × List ℕ) (r : ℕ) : List ℕ × List ℕ :=
  let indices := acc.1 ++ maskRow m.cols (m.rows.map fun x => decide (x = r))
  (indices, acc.2 ++ [indices.length])

/-- `indices_indptr`, data.py 78-105. -/
def indicesIndptr (m : DataMap) : List ℕ × List ℕ :=
  (npUnique m.rows).foldl m.indptrStep ([], [0])

/-- `onsite(alpha)`, data.py 107-122. -/
def onsite (m : DataMap) (alpha : Option ℤ) : List Bool :=
  match alpha with
  | none => m.map.map fun x => decide (x < 0)
  | some a => m.map.map fun x => decide (x = -a - 1)

/-- `hopping(distidx)`, data.py 124-140. -/
def hopping (m : DataMap) (distidx : Option ℤ) : List Bool :=
  match distidx with
  | none => m.map.map fun x => decide (0 ≤ x)
  | some i => m.map.map fun x => decide (x = i)

/-- Entry `(i, j)` of `csr_matrix((data, (rows, cols)))`, data.py 164-183: SciPy adds the data
of all elements at that place. -/
def csrEntry {α : Type*} [AddCommMonoid α] (m : DataMap) (data : List α) (i j : ℕ) : α :=
  ((m.indices.zip data).filterMap fun p => if p.1 = (i, j) then some p.2 else none).sum

/-- The blocks of `bsr_matrix((data, indices, indptr))`, data.py 185-206: block row `r` holds
the data elements `indptr[r] .. indptr[r+1]-1` at the columns `indices[k]`; listed as
`(row, column, k)`. -/
def bsrBlocks (indices indptr : List ℕ) : List (ℕ × ℕ × ℕ) :=
  (List.range (indptr.length - 1)).flatMap fun r =>
    (List.range indices.length).filterMap fun k =>
      if indptr.getD r 0 ≤ k ∧ k < indptr.getD (r + 1) 0 then
        indices[k]?.map fun c => (r, c, k)
      else none

end DataMap

/-! ## LatticeData -/

/-- The attributes of `LatticeData`, data.py 227-242.  A row of `indices` is the cell followed
by the atom number. -/
structure LatticeData (d : ℕ) (K : Type*) where
  indices : List (Fin (d + 1) → ℤ)
  positions : List (Vec d K)
  neighbors : List (List ℕ)
  distances : List (List ℕ)
  distvals : List (WithTop K)
  pnvecs : List (List (Fin d → ℤ))
  pmask : List (List Bool)
  paxes : List (List (List ℕ))
  invalidIdx : ℕ
  invalidDistidx : ℕ
  dmap : Option DataMap

namespace LatticeData
variable {d : ℕ} {K : Type*}

/-- `num_sites`, data.py 249-252. -/
def numSites (D : LatticeData d K) : ℕ := D.indices.length

/-- `num_distances`, data.py 254-257: the table holds distance *numbers*, which are all finite. -/
def numDistances (D : LatticeData d K) : ℕ := (npUnique D.distances.flatten).length

/-- `bool(data)`, data.py 722-723. -/
def toBool (D : LatticeData d K) : Bool := decide (D.indices.length ≠ 0)

/-- `set(indices, positions, neighbors, distances)`, data.py 286-320.  `np.max` of an empty
table raises `ValueError`. -/
def set [LinearOrder K] (indices : List (Fin (d + 1) → ℤ)) (positions : List (Vec d K))
    (neighbors : List (List ℕ)) (distances : List (List (WithTop K))) :
    Except PyErr (LatticeData d K) :=
  let table := createLookupTable distances.flatten 8
  let distidx := splitLike distances table.2
  match table.2 with
  | [] => .error .value
  | x :: xs => .ok {
      indices := indices
      positions := positions
      neighbors := neighbors
      distances := distidx
      distvals := table.1
      paxes := neighbors.map fun r => r.map fun _ => List.replicate d 0
      pnvecs := neighbors.map fun r => r.map fun _ => 0
      pmask := neighbors.map fun r => r.map fun _ => false
      invalidIdx := indices.length
      invalidDistidx := xs.foldl max x
      dmap := none }

/-! ### queries -/

/-- `neighbor_mask(site, distidx, periodic, unique)`, data.py 397-433. -/
def neighborMask (D : LatticeData d K) (site : ℕ) (distidx : Option ℕ) (periodic : Option Bool)
    (unique : Bool) : Except PyErr (List Bool) :=
  match D.distances[site]?, D.neighbors[site]?, D.pmask[site]? with
  | some dr, some nr, some pr =>
    let mask := match distidx with
      | none => dr.map fun x => decide (x < D.invalidDistidx)
      | some i => dr.map fun x => decide (x = i)
    let mask := if unique then List.zipWith (· && ·) mask (nr.map fun n => decide (site < n))
      else mask
    .ok (match periodic with
      | none => mask
      | some true => List.zipWith (· && ·) mask pr
      | some false => List.zipWith (· && ·) mask (pr.map fun b => !b))
  | _, _, _ => .error .index

/-- `get_neighbors(site, distidx, periodic, unique)`, data.py 579-596. -/
def getNeighbors (D : LatticeData d K) (site : ℕ) (distidx : Option ℕ) (periodic : Option Bool)
    (unique : Bool) : Except PyErr (List ℕ) :=
  match D.neighborMask site distidx periodic unique, D.neighbors[site]? with
  | .ok mask, some nr => .ok (maskRow nr mask)
  | .error e, _ => .error e
  | _, none => .error .index

/-- `list(iter_neighbors(site, unique))`, data.py 598-610. -/
def iterNeighbors (D : LatticeData d K) (site : ℕ) (unique : Bool) :
    Except PyErr (List (ℕ × List ℕ)) :=
  match D.distances[site]? with
  | none => .error .index
  | some dr =>
    ((npUnique dr).filter fun i => decide (i ≠ D.invalidDistidx)).mapM fun i =>
      match D.getNeighbors site (some i) none unique with
      | .ok l => .ok (i, l)
      | .error e => .error e

/-- `get_positions(alpha)`, data.py 574-577. -/
def getPositions (D : LatticeData d K) (alpha : ℤ) : List (Vec d K) :=
  maskRow D.positions (D.indices.map fun r => decide (r (Fin.last d) = alpha))

/-! ### remove -/

/-- `np.delete(rows, sites, axis=0)`; an index out of range raises `IndexError`. -/
def deleteRows {α : Type*} (rows : List α) (sites : List ℕ) : Except PyErr (List α) :=
  if sites.all fun s => decide (s < rows.length) then
    .ok (gather rows ((List.range rows.length).filter fun i => decide (i ∉ sites)))
  else .error .index

/-- The loop of `remove` on one neighbour entry, data.py 340-341:
`for count, i in enumerate(sorted(sites)): neighbors[neighbors > i - count] -= 1`. -/
def decrement (sites : List ℕ) (n : ℕ) : ℕ :=
  (sites.insertionSort (· ≤ ·)).zipIdx.foldl
    (fun m p => if (p.1 : ℤ) - (p.2 : ℤ) < (m : ℤ) then m - 1 else m) n

/-- `remove(sites)`, data.py 322-352.  (The distance table is deleted like the neighbour
table; `pnvecs`, `pmask`, `paxes` and the cached map are *not* touched by the code.) -/
def remove (D : LatticeData d K) (sites : List ℕ) : Except PyErr (LatticeData d K) :=
  match deleteRows D.indices sites, deleteRows D.positions sites, deleteRows D.neighbors sites,
      deleteRows D.distances sites with
  | .ok indices, .ok positions, .ok neighbors, .ok distances =>
    -- lines 337-339
    let distances := List.zipWith (List.zipWith fun n x =>
      if n ∈ sites then D.invalidDistidx else x) neighbors distances
    let neighbors := neighbors.map fun r => r.map fun n => if n ∈ sites then D.invalidIdx else n
    -- lines 340-341
    let neighbors := neighbors.map fun r => r.map (decrement sites)
    -- lines 344-345
    let numSites := indices.length
    let neighbors := neighbors.map fun r => r.map fun n => if n = D.invalidIdx then numSites else n
    .ok { D with
      indices := indices, positions := positions, neighbors := neighbors, distances := distances
      invalidIdx := numSites }
  | _, _, _, _ => .error .index

/-! ### periodic neighbours -/

/-- `remove_periodic()`, data.py 489-495.  The mask must have the shape of the neighbour table,
otherwise NumPy's boolean indexing raises `IndexError` (this happens after `remove`, which keeps
the old mask; the tables always have the same number of columns). -/
def removePeriodic (D : LatticeData d K) : Except PyErr (LatticeData d K) :=
  if D.pmask.length = D.neighbors.length then .ok { D with
    neighbors := List.zipWith (List.zipWith fun n b => if b then D.invalidIdx else n)
      D.neighbors D.pmask
    distances := List.zipWith (List.zipWith fun x b => if b then D.invalidDistidx else x)
      D.distances D.pmask
    pnvecs := D.pnvecs.map fun r => r.map fun _ => 0
    pmask := D.pmask.map fun r => r.map fun _ => false
    paxes := D.paxes.map fun r => r.map fun _ => List.replicate d d }
  else .error .index

/-- The array `neighbors` after `remove_periodic()`, data.py 490-491 (line 491 writes into the array
itself, so that every other reference to it sees the change). -/
def clearedNeighbors (D : LatticeData d K) : List (List ℕ) :=
  List.zipWith (List.zipWith fun n b => if b then D.invalidIdx else n) D.neighbors D.pmask

/-- One periodic neighbour as passed to `set_periodic`: neighbour, distance, translation
vector, axes. -/
structure PLink (d : ℕ) (K : Type*) where
  nbr : ℕ
  dist : WithTop K
  nvec : Fin d → ℤ
  axes : List ℕ

/-- Writing `axes` to the first entries of a row of `paxes` (data.py 465). -/
def writeAxes (old axes : List ℕ) : List ℕ := writeSlice old 0 axes

/-- The body of the loop of `set_periodic` for one site, data.py 456-467.  The slice
`i0:i1` is cut off at the row width; NumPy then raises `ValueError` unless there is exactly
one value, which is broadcast to the (empty) slice, i.e. dropped. -/
def setPeriodicSite [LinearOrder K] (D : LatticeData d K) (i : ℕ) (links : List (PLink d K)) :
    Except PyErr (LatticeData d K) :=
  match D.getNeighbors i none (some false) false, D.neighbors[i]? with
  | .ok reg, some row =>
    let i0 := reg.length
    if i0 + links.length ≤ row.length then
      .ok { D with
        neighbors := modifyRow D.neighbors i fun r => writeSlice r i0 (links.map PLink.nbr)
        distances := modifyRow D.distances i fun r =>
          writeSlice r i0 (links.map fun l => searchsorted D.distvals l.dist)
        paxes := modifyRow D.paxes i fun r =>
          writeSlice r i0 (List.zipWith (fun old (l : PLink d K) => writeAxes old l.axes)
            (r.drop i0) links)
        pnvecs := modifyRow D.pnvecs i fun r => writeSlice r i0 (links.map PLink.nvec)
        pmask := modifyRow D.pmask i fun r => writeSlice r i0 (links.map fun _ => true) }
    else if links.length = 1 then .ok D
    else .error .value
  | .error e, _ => .error e
  | _, none => .error .index

/-- `set_periodic(indices, distances, nvecs, axes)`, data.py 435-467.  The four dictionaries
(with the same keys and equally long values) are given as one list of sites with their
periodic neighbours. -/
def setPeriodic [LinearOrder K] (D : LatticeData d K) (items : List (ℕ × List (PLink d K))) :
    Except PyErr (LatticeData d K) :=
  match D.removePeriodic with
  | .ok D0 => items.foldlM (fun E p => E.setPeriodicSite p.1 p.2) D0
  | .error e => .error e

/-! ### sorting -/

/-- The relabelling loop of `sort` on one neighbour entry, data.py 484-487. -/
def relabel (perm : List ℕ) (n : ℕ) : ℕ :=
  perm.zipIdx.foldl (fun m p => if p.1 = n then p.2 else m) n

/-- Reordering with given site numbers, data.py 474-487. -/
def reorder (D : LatticeData d K) (perm : List ℕ) : LatticeData d K :=
  { D with
    indices := gather D.indices perm
    positions := gather D.positions perm
    neighbors := (gather D.neighbors perm).map fun r => r.map (relabel perm)
    distances := gather D.distances perm
    paxes := gather D.paxes perm
    pnvecs := gather D.pnvecs perm
    pmask := gather D.pmask perm }

/-- The permutation used by `sort(ax, reverse)`: `np.lexsort` on one column is a stable sort
(data.py 470-473). -/
def sortPerm (D : LatticeData d K) (ax : Fin (d + 1)) (reverse : Bool) : List ℕ :=
  let perm := stableSortBy (fun i => (D.indices.getD i 0) ax) (List.range D.indices.length)
  if reverse then perm.reverse else perm

/-- `sort(ax, reverse=reverse)`, data.py 469-487. -/
def sort (D : LatticeData d K) (ax : Fin (d + 1)) (reverse : Bool) : LatticeData d K :=
  D.reorder (D.sortPerm ax reverse)

/-- `sort_neighbors()`, data.py 497-505. -/
def sortNeighbors [LinearOrder K] (env : Env K) (D : LatticeData d K) : LatticeData d K :=
  let perms := D.distances.map fun r => env.argsort (r.map fun x => D.distvals.getD x ⊤)
  { D with
    neighbors := List.zipWith gather D.neighbors perms
    distances := List.zipWith gather D.distances perms
    paxes := List.zipWith gather D.paxes perms
    pnvecs := List.zipWith gather D.pnvecs perms
    pmask := List.zipWith gather D.pmask perms }

/-! ### adding -/

/-- `add_neighbors(site, j, dist)` for one neighbour (the way `Lattice._append` uses it),
data.py 507-517.  The slice `i0:i0+1` is empty when the row is full: nothing is stored. -/
def addNeighbor [LinearOrder K] (D : LatticeData d K) (site j : ℕ) (dist : WithTop K) :
    Except PyErr (LatticeData d K) :=
  match D.distances[site]? with
  | none => .error .index
  | some dr =>
    let i0 := (dr.filter fun x => decide (x ≠ D.invalidDistidx)).length
    if i0 + 1 ≤ dr.length then
      .ok { D with
        neighbors := modifyRow D.neighbors site fun r => writeSlice r i0 [j]
        distances := modifyRow D.distances site fun r =>
          writeSlice r i0 [searchsorted D.distvals dist] }
    else .ok D

/-- `distvals[distances]`. -/
def distTable (D : LatticeData d K) : List (List (WithTop K)) :=
  D.distances.map fun r => r.map fun x => D.distvals.getD x ⊤

/-- `np.pad(rows, ((0, 0), (0, cols - w)), constant_values=v)`. -/
def padRows {α : Type*} (cols : ℕ) (v : α) (rows : List (List α)) : List (List α) :=
  rows.map fun r => r ++ List.replicate (cols - r.length) v

/-- Number of columns of a table (`shape[1]`). -/
def ncols {α : Type*} (rows : List (List α)) : ℕ := (rows.headD []).length

/-- `append(indices2, positions2, neighbors2, distances2)`, data.py 519-572 (with
`copy=False`).  The periodic neighbours are removed from `self` (line 532) only *after*
`neighbors1` and `distances1` were taken (lines 520-521), so they stay in the result.
`np.max(neighbors2)` (line 540) raises `ValueError` for an empty table.  Integers are
unbounded. -/
def append [LinearOrder K] (env : Env K) (D : LatticeData d K) (indices2 : List (Fin (d + 1) → ℤ))
    (positions2 : List (Vec d K)) (neighbors2 : List (List ℕ))
    (distances2 : List (List (WithTop K))) : Except PyErr (LatticeData d K) :=
  let invalidIdx := D.numSites + indices2.length
  -- lines 520-521, 536
  let nbrs1 := D.neighbors.map fun r => r.map fun n =>
    if n = D.invalidIdx then invalidIdx else n
  -- lines 537, 544
  let nbrs2 := (neighbors2.map fun r => r.map fun n =>
    if n = indices2.length then invalidIdx else n).map fun r => r.map fun n =>
      if n ≠ invalidIdx then n + D.numSites else n
  let cols := max (ncols nbrs1) (ncols nbrs2)
  match D.removePeriodic, neighbors2.flatten with
  | .error e, _ => .error e
  | .ok _, [] => .error .value
  | .ok _, _ :: _ =>
    match set (D.indices ++ indices2) (D.positions ++ positions2)
        (padRows cols invalidIdx nbrs1 ++ padRows cols invalidIdx nbrs2)
        (padRows cols ⊤ D.distTable ++ padRows cols ⊤ distances2) with
    | .ok E => .ok (E.sortNeighbors env)
    | .error e => .error e

/-- `append(data)` with a `LatticeData` argument, data.py 522-527.  Second component: the
argument after the call; line 537 writes the new invalid index into the *argument's* own
neighbour table.  The shift of line 544 works on a converted copy: `min_dtype` gives an unsigned type
and the tables of a lattice are signed, so line 541 always finds different types.  The argument is
another object than `self`. -/
def appendData [LinearOrder K] (env : Env K) (D E : LatticeData d K) :
    Except PyErr (LatticeData d K × LatticeData d K) :=
  match D.append env E.indices E.positions E.neighbors E.distTable with
  | .ok R => .ok (R, { E with neighbors := E.neighbors.map fun r => r.map fun n =>
      if n = E.indices.length then D.numSites + E.indices.length else n })
  | .error e => .error e

/-! ### data map -/

/-- The neighbour pairs of all sites in row-major order with their levels, data.py 620-630
(also `Lattice.neighbor_pairs`, lattice.py 1042-1052). -/
def pairTable (D : LatticeData d K) : List ((ℕ × ℕ) × ℕ) :=
  ((List.range D.numSites).zipWith (fun i (rows : List ℕ × List ℕ) =>
      (rows.1.zip rows.2).map fun p => ((i, p.1), p.2)) (D.neighbors.zip D.distances)).flatten

/-- The map computed from the current tables, data.py 620-631.  The atom numbers are stored with 8
bits (`astype(np.int8)`). -/
def computeMap (argsort : List ℕ → List ℕ) (D : LatticeData d K) : DataMap :=
  let valid := D.pairTable.filter fun p => decide (p.2 ≠ D.invalidDistidx)
  DataMap.init argsort (D.indices.map fun r => wrapSigned 8 (r (Fin.last d))) (valid.map Prod.fst)
    (valid.map Prod.snd)

/-- `map()`, data.py 612-632: the cached map, computed on first use.  Returns the map and the
data object with the cache filled. -/
def map (argsort : List ℕ → List ℕ) (D : LatticeData d K) : DataMap × LatticeData d K :=
  match D.dmap with
  | some m => (m, D)
  | none => (D.computeMap argsort, { D with dmap := some (D.computeMap argsort) })

/-! ### site searches -/

/-- One condition of `site_mask`: `lo <= x <= hi` with missing limits `None`. -/
def inLimits [LinearOrder K] (lo hi : Option K) (x : K) : Bool :=
  (match lo with | none => true | some a => decide (a ≤ x)) &&
  (match hi with | none => true | some b => decide (x ≤ b))

/-- `site_mask(mins, maxs, invert)`, data.py 634-671; missing or short limits are padded with
`None` (lists longer than the dimension are not modelled). -/
def siteMask [LinearOrder K] (D : LatticeData d K) (mins maxs : List (Option K)) (invert : Bool) :
    List Bool :=
  D.positions.map fun x =>
    let m := (List.finRange d).all fun k => inLimits (mins.getD k none) (maxs.getD k none) (x k)
    if invert then !m else m

/-- `find_sites(mins, maxs, invert)`, data.py 673-697. -/
def findSites [LinearOrder K] (D : LatticeData d K) (mins maxs : List (Option K)) (invert : Bool) :
    List ℕ :=
  whereIdx (fun b => b) (D.siteMask mins maxs invert)

/-- `get_limits()`, data.py 354-364: columnwise minimum and maximum; `ValueError` without
sites. -/
def getLimits [LinearOrder K] (D : LatticeData d K) : Except PyErr (Vec d K × Vec d K) :=
  match D.positions with
  | [] => .error .value
  | v :: vs => .ok (fun k => (vs.map fun x => x k).foldl min (v k),
      fun k => (vs.map fun x => x k).foldl max (v k))

/-- `get_index_limits()`, data.py 366-374: like `get_limits` for the lattice indices. -/
def getIndexLimits (D : LatticeData d K) : Except PyErr ((Fin (d + 1) → ℤ) × (Fin (d + 1) → ℤ)) :=
  match D.indices with
  | [] => .error .value
  | v :: vs => .ok (fun k => (vs.map fun x => x k).foldl min (v k),
      fun k => (vs.map fun x => x k).foldl max (v k))

/-- `get_cell_limits()`, data.py 376-385: without the last column. -/
def getCellLimits (D : LatticeData d K) : Except PyErr ((Fin d → ℤ) × (Fin d → ℤ)) :=
  match D.indices.map fun x => fun k : Fin d => x k.castSucc with
  | [] => .error .value
  | v :: vs => .ok (fun k => (vs.map fun x => x k).foldl min (v k),
      fun k => (vs.map fun x => x k).foldl max (v k))

/-- `get_translation_limits()`, data.py 387-395. -/
def getTranslationLimits (D : LatticeData d K) : Except PyErr ((Fin d → ℤ) × (Fin d → ℤ)) :=
  match D.getIndexLimits with
  | .error e => .error e
  | .ok (lo, hi) => .ok (fun k => lo k.castSucc, fun k => hi k.castSucc)

/-- `find_outer_sites(ax, offset)`, data.py 699-720. -/
def findOuterSites [Field K] [LinearOrder K] (D : LatticeData d K) (ax : Fin d) (offset : K) :
    Except PyErr (List ℕ) :=
  match D.getLimits with
  | .error e => .error e
  | .ok (lo, hi) =>
    let mins := (List.finRange d).map fun k => if k = ax then some (lo ax + offset) else none
    let maxs := (List.finRange d).map fun k => if k = ax then some (hi ax - offset) else none
    .ok (whereIdx (fun b => b) (D.siteMask mins maxs true))

end LatticeData

end Lattpy

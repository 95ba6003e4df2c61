import Verif.Model.Structure

/-!
# Model of `lattpy/lattice.py` (`Lattice`)

The object is the record `Lattice`.  Its data object is `none` while it is in the state of
`LatticeData.reset()` (empty one-dimensional arrays): indexing it raises `IndexError`.  Site and
axis numbers are natural numbers (negative Python indices are not modelled).
-/

set_option autoImplicit false

namespace Lattpy

open Structure

variable {d : ℕ} {K : Type*}

/-! ## dangling sites -/

/-- `_filter_dangling(indices, positions, neighbors, dists, min_neighbors)`, lattice.py 44-73.  The
neighbour and distance tables are one table of pairs. -/
def filterDangling (indices : List (Idx d)) (positions : List (Vec d K))
    (table : List (List (ℕ × WithTop K))) (minNeighbors : ℕ) [DecidableEq K] :
    Except PyErr (List (Idx d) × List (Vec d K) × List (List (ℕ × WithTop K))) :=
  -- lines 45-46
  let sites := whereIdx (fun row => decide
    ((row.filter fun p : ℕ × WithTop K => decide (p.2 ≠ ⊤)).length < minNeighbors)) table
  if sites.length = 0 then .ok (indices, positions, table)
  else if sites.length = indices.length then .error .value
  else
    let invalidIdx := indices.length
    -- lines 56-59
    match LatticeData.deleteRows indices sites, LatticeData.deleteRows positions sites,
        LatticeData.deleteRows table sites with
    | .ok indices', .ok positions', .ok table' =>
      -- lines 63-65
      let table' := table'.map fun r => r.map fun p => if p.1 ∈ sites then (invalidIdx, ⊤) else p
      -- lines 66-67
      let table' := table'.map fun r => r.map fun p => (LatticeData.decrement sites p.1, p.2)
      -- lines 70-71
      let table' := table'.map fun r => r.map fun p =>
        (if p.1 = invalidIdx then indices'.length else p.1, p.2)
      .ok (indices', positions', table')
    | _, _, _ => .error .index

/-! ## the object -/

/-- `Lattice`, lattice.py 126-137.  `world` is the inherited structure (with the session owning the
atoms). -/
structure Lattice (d : ℕ) (K : Type*) where
  world : World d K
  data : Option (LatticeData d K)
  shape : Option (Vec d K)
  pos : Option (Vec d K)
  periodicAxes : List ℕ
  primitive : Option Bool

/-- The `axis` argument of `set_periodic` and the `periodic` argument of `build`: `True`/`False`
(also `None`), or a number or list of numbers. -/
inductive PAxis where
  | flag (b : Bool)
  | axes (l : List ℕ)

/-- The arguments of `build`, lattice.py 396-407 (`num_jobs` has no effect on the result). -/
structure BuildArgs (d : ℕ) (K : Type*) where
  shape : ShapeArg d K
  primitive : Bool := false
  pos : Option (Vec d K) := none
  check : Bool := true
  minNeighbors : Option ℕ := none
  periodic : Option PAxis := none
  callback : Option (List (Idx d) → List (Vec d K) → List Bool) := none
  bits : Option ℕ := none

namespace Lattice

/-- `Lattice(basis)`, lattice.py 126-134, for a configured structure. -/
def ofWorld (w : World d K) : Lattice d K :=
  { world := w, data := none, shape := none, pos := none, periodicAxes := [], primitive := none }

/-- The inherited structure. -/
def struct (L : Lattice d K) : Structure d K := L.world.struct

/-- `num_sites`, lattice.py 139-142. -/
def numSites (L : Lattice d K) : ℕ := match L.data with | none => 0 | some D => D.numSites

/-! ### site access -/

/-- `alpha(idx)`, lattice.py 169-182. -/
def alpha (L : Lattice d K) (idx : ℕ) : Except PyErr ℤ :=
  match L.data with
  | none => .error .index
  | some D => match D.indices[idx]? with
    | none => .error .index
    | some x => .ok (Idx.alpha x)

/-- `atom(idx)`, lattice.py 184-196. -/
def atom (L : Lattice d K) (idx : ℕ) : Except PyErr Atom :=
  match L.alpha idx with
  | .error e => .error e
  | .ok a => match pyGet L.struct.atoms a with
    | none => .error .index
    | some at' => .ok at'

/-- `position(idx)`, lattice.py 198-211. -/
def position (L : Lattice d K) (idx : ℕ) : Except PyErr (Vec d K) :=
  match L.data with
  | none => .error .index
  | some D => match D.positions[idx]? with
    | none => .error .index
    | some x => .ok x

section
variable [Field K] [LinearOrder K]

/-- `superindex_from_pos(pos, atol)`, lattice.py 271-290.  Without data the subtraction of arrays
of shapes `(0,)` and `(1, d)` raises `ValueError` for `d ≠ 1`; for `d = 1` it gives an array of
shape `(1, 0)`, for which `np.all` is true: the result is site 0. -/
def superindexFromPos (L : Lattice d K) (pos : Vec d K) (atol : K) : Except PyErr (Option ℕ) :=
  match L.data with
  | none => if d = 1 then .ok (some 0) else .error .value
  | some D => .ok (whereIdx (fun x : Vec d K => decide (∀ k, |x k - pos k| < atol)) D.positions).head?

end

/-- `superindex_from_index(ind)`, lattice.py 292-309: for integers `|x| < 1e-4` means equality.
Without data the arrays do not broadcast. -/
def superindexFromIndex (L : Lattice d K) (ind : Idx d) : Except PyErr (Option ℕ) :=
  match L.data with
  | none => .error .value
  | some D => .ok (whereIdx (fun x : Idx d => decide (x = ind)) D.indices).head?

/-- `neighbors(site, distidx, unique)`, lattice.py 311-330. -/
def neighbors (L : Lattice d K) (site : ℕ) (distidx : Option ℕ) (unique : Bool) :
    Except PyErr (List ℕ) :=
  match L.data with
  | none => .error .index
  | some D => D.getNeighbors site distidx none unique

/-- `nearest_neighbors(idx, unique)`, lattice.py 332-347. -/
def nearestNeighbors (L : Lattice d K) (idx : ℕ) (unique : Bool) : Except PyErr (List ℕ) :=
  L.neighbors idx (some 0) unique

/-- `list(iter_neighbors(site, unique))`, lattice.py 349-369.  Without data the loop over the generator
raises `IndexError`. -/
def iterNeighbors (L : Lattice d K) (site : ℕ) (unique : Bool) :
    Except PyErr (List (ℕ × List ℕ)) :=
  match L.data with
  | none => .error .index
  | some D => D.iterNeighbors site unique

/-- The loop of `check_neighbors`, lattice.py 386-389. -/
def checkLoop (L : Lattice d K) (idx0 idx1 : ℕ) : List ℕ → Except PyErr (Option ℕ)
  | [] => .ok none
  | x :: xs => match L.neighbors idx0 (some x) false with
    | .error e => .error e
    | .ok l => if idx1 ∈ l then .ok (some x) else checkLoop L idx0 idx1 xs

/-- `check_neighbors(idx0, idx1)`, lattice.py 371-389; `num_distances` (structure.py 155-158) is the
largest entry of the connections. -/
def checkNeighbors (L : Lattice d K) (idx0 idx1 : ℕ) : Except PyErr (Option ℕ) :=
  match L.struct.conn with
  | none => .error .type
  | some c => match c.max? with
    | .error e => .error e
    | .ok n => L.checkLoop idx0 idx1 (List.range n)

/-! ### periodic boundary conditions -/

/-- `itertools.combinations_with_replacement(axes, r=2)`. -/
def pairsOf : List ℕ → List (ℕ × ℕ)
  | [] => []
  | a :: l => (a :: l).map (fun b => (a, b)) ++ pairsOf l

/-- Lattice.py 544-546: change the sign of all components but the first. -/
def flipTail (nvec : Fin d → ℤ) : Fin d → ℤ := fun k => if k.val = 0 then nvec k else -nvec k

/-- `cell_size` (basis.py 98, 183-186) in any dimension. -/
def cellSizes [Field K] [LinearOrder K] : {d : ℕ} → LatticeBasis d K → Vec d K
  | 0, _ => Fin.elim0
  | _ + 1, b => b.cellSize

section
variable [Field K] [LinearOrder K] [FloorRing K]

/-- `_build_periodic_translation_vector(axes, primitive, indices)`, lattice.py 487-514.  (The minima
and maxima of line 497 do not depend on the removal of repeated rows in line 495; without rows
they raise `ValueError`.) -/
def periodicVector (b : LatticeBasis d K) (indices : List (Idx d)) (axes : List ℕ)
    (primitive : Bool) : Except PyErr (Fin d → ℤ) :=
  if primitive then
    match indices with
    | [] => .error .value
    | x :: xs =>
      if axes.all fun a => decide (a < d) then
        .ok fun k => if k.val ∈ axes then
          (xs.map fun y : Idx d => y.cell k).foldl max (x.cell k) -
            (xs.map fun y : Idx d => y.cell k).foldl min (x.cell k) + 1 else 0
      else .error .index
  else
    match AShape.minMax (indices.map fun x : Idx d => b.transform fun k => (x.cell k : K)) with
    | .error e => .error e
    | .ok lim =>
      if axes.all fun a => decide (a < d) then
        let ppoint : Vec d K := fun k => if k.val ∈ axes then
          (lim k).2 - (lim k).1 + cellSizes b k * 2 / 3 else 0
        .ok fun k => rint (b.itransform ppoint k)
      else .error .index

/-- The vectors for one pair of axes, lattice.py 541-547; `first` is `axes[0]`. -/
def pairVectors (b : LatticeBasis d K) (indices : List (Idx d)) (first : Option ℕ)
    (primitive : Bool) (p : ℕ × ℕ) : Except PyErr (List (List ℕ × (Fin d → ℤ))) :=
  match periodicVector b indices [p.1, p.2] primitive with
  | .error e => .error e
  | .ok v => .ok (if some p.1 = first ∧ some p.2 = first then
      [([p.1, p.2], v)] else [([p.1, p.2], v), ([p.1, p.2], flipTail v)])

/-- `periodic_translation_vectors(axes, primitive)`, lattice.py 516-548, for the sites
`indices`. -/
def periodicVectors (b : LatticeBasis d K) (indices : List (Idx d)) (axes : List ℕ)
    (primitive : Bool) : Except PyErr (List (List ℕ × (Fin d → ℤ))) :=
  match axes with
  | [a] => match periodicVector b indices [a] primitive with
    | .error e => .error e
    | .ok v => .ok [([a], v)]
  | _ =>
    match (pairsOf axes).mapM (pairVectors b indices axes.head? primitive) with
    | .error e => .error e
    | .ok l => .ok l.flatten

end

/-- A dictionary from sites to lists of periodic neighbours (the four parallel dictionaries of
lattice.py 587 as one), in insertion order. -/
abbrev PDict (d : ℕ) (K : Type*) := List (ℕ × List (LatticeData.PLink d K))

/-- `setdefault(site, list()).extend(...)`. -/
def PDict.extend : PDict d K → ℕ → List (LatticeData.PLink d K) → PDict d K
  | [], i, ls => [(i, ls)]
  | (j, ms) :: P, i, ls => if j = i then (j, ms ++ ls) :: P else (j, ms) :: PDict.extend P i ls

/-- Lattice.py 602-617 for one site and its row of the neighbour table of the translated sites. -/
def pRow [DecidableEq K] (n : ℕ) (axes : List ℕ) (nvec : Fin d → ℤ) (P : PDict d K) (site : ℕ)
    (row : List (ℕ × WithTop K)) : PDict d K :=
  if row.any fun p => decide (p.2 ≠ ⊤) then
    let valid := row.filter fun p => decide (p.1 < n)
    let P := P.extend site (valid.map fun p => ⟨p.1, p.2, nvec, axes⟩)
    valid.foldl (fun P p => PDict.extend P p.1 [⟨site, p.2, -nvec, axes⟩]) P
  else P

/-- Lattice.py 620-642 for one site: `links` are its collected periodic neighbours, `existing` its
regular ones.  The regular ones are removed from the list of neighbours (lines 626-628) but *not*
from the parallel lists, which are then read at the positions in the shortened list (lines
632-636). -/
def pFinal (existing : List ℕ) (links : List (LatticeData.PLink d K)) :
    List (LatticeData.PLink d K) :=
  let nbrs := (links.map LatticeData.PLink.nbr).filter fun j => decide (j ∉ existing)
  (npUnique nbrs).filterMap fun j => links[nbrs.idxOf j]?.map fun l => { l with nbr := j }

section
variable [Field K] [LinearOrder K] [FloorRing K] [HasSqrt K]

/-- Lattice.py 588-596: the connected sites within reach of each translated site. -/
def pTable (env : Env K) (S : Structure d K) (A : Analysis d K) (k : ℕ) (maxDist : K)
    (indices : List (Idx d)) (positions : List (Vec d K)) (nvec : Fin d → ℤ) :
    List (List (ℕ × WithTop K)) :=
  let q := kdQuery env positions k (maxDist : WithTop K) (positions.map (S.basis.translate nvec))
    (some distDecimals) false true
  filterNeighbors env A.distMatrix indices (List.zipWith List.zip q.neighbors q.dists)
    (indices.map (shiftIdx nvec))

/-- Lattice.py 587-617: all periodic neighbours found. -/
def pCollect (env : Env K) (S : Structure d K) (A : Analysis d K) (k : ℕ) (maxDist : K)
    (indices : List (Idx d)) (positions : List (Vec d K))
    (vecs : List (List ℕ × (Fin d → ℤ))) : PDict d K :=
  vecs.foldl (fun P v =>
    (pTable env S A k maxDist indices positions v.2).zipIdx.foldl
      (fun P r => pRow indices.length v.1 v.2 P r.2 r.1) P) []

/-- Lattice.py 620-642 for one entry of the dictionary. -/
def pSite (D : LatticeData d K) (p : ℕ × List (LatticeData.PLink d K)) :
    Except PyErr (ℕ × List (LatticeData.PLink d K)) :=
  match D.getNeighbors p.1 none none false with
  | .error e => .error e
  | .ok existing => .ok (p.1, pFinal existing p.2)

/-- `_compute_pneighbors(axis, primitive)`, lattice.py 568-643 (`primitive=None` is false).
Lists of axes with repetitions are not modelled.  Without an analysis `np.sum(None, axis=1)` raises
`AxisError`, a `ValueError`. -/
def computePneighbors (env : Env K) (S : Structure d K) (D : LatticeData d K) (axes : List ℕ)
    (primitive : Bool) : Except PyErr (PDict d K) :=
  match S.analysis with
  | none => .error .value
  | some A => match queryParams A with
    | .error e => .error e
    | .ok (k, maxDist) => match periodicVectors S.basis D.indices axes primitive with
      | .error e => .error e
      | .ok vecs =>
        match (pCollect env S A k maxDist D.indices D.positions vecs).mapM (pSite D) with
        | .error e => .error e
        | .ok Q => .ok (Q.filter fun p => !p.2.isEmpty)

/-- The loop of `LatticeData.set_periodic` (data.py 455-467) keeping the state reached when a site
raises. -/
def setPeriodicLoop : LatticeData d K → PDict d K → Outcome (LatticeData d K) Unit
  | D, [] => (D, .ok ())
  | D, p :: P => match D.setPeriodicSite p.1 p.2 with
    | .error e => (D, .error e)
    | .ok E => setPeriodicLoop E P

/-- Lattice.py 695-701 (after the first `remove_periodic`, with data `D`). -/
def setPeriodicAxes (env : Env K) (L : Lattice d K) (D : LatticeData d K) (axes : List ℕ) :
    Outcome (Lattice d K) Unit :=
  match computePneighbors env L.struct D axes (L.primitive.getD false) with
  | .error e => (L, .error e)
  | .ok P =>
    -- lines 698-699
    if P.isEmpty then (L, .ok ())
    else match D.removePeriodic with
      | .error e => (L, .error e)
      | .ok D1 => match setPeriodicLoop D1 P with
        | (E, .error e) => ({ L with data := some E }, .error e)
        | (E, .ok ()) => ({ L with data := some E, periodicAxes := axes }, .ok ())

/-- `set_periodic(axis)`, lattice.py 645-701. -/
def setPeriodic (env : Env K) (L : Lattice d K) (axis : PAxis) : Outcome (Lattice d K) Unit :=
  match L.shape with
  | none => (L, .error .notBuilt)
  | some _ => match L.data with
    -- indexing the reset arrays
    | none => (L, .error .index)
    | some D => match D.removePeriodic with
      | .error e => (L, .error e)
      | .ok D0 =>
        let L0 := { L with data := some D0 }
        match axis with
        | .flag false => ({ L0 with periodicAxes := [] }, .ok ())
        | .flag true => setPeriodicAxes env L0 D0 (List.range d)
        | .axes l => setPeriodicAxes env L0 D0 l

/-! ### build -/

/-- `_update_shape()`, lattice.py 391-394. -/
def updateShape (L : Lattice d K) : Outcome (Lattice d K) Unit :=
  match L.data with
  | none => (L, .error .value)
  | some D => match D.getLimits with
    | .error e => (L, .error e)
    | .ok (lo, hi) => ({ L with shape := some fun k => hi k - lo k, pos := some lo }, .ok ())

/-- `_assert_connections(); _assert_analyzed()`, structure.py 526-532 (`None == 0` is false). -/
def assertReady (S : Structure d K) : Except PyErr Unit :=
  let connected := match S.conn with | none => true | some c => !c.allZero
  if connected then match S.analysis with
    | none => .error .notAnalyzed
    | some _ => .ok ()
  else .error .noConnections

/-- The region to build, lattice.py 449-451: numbers become a `Shape` object.  (A list of a wrong
length raises `ValueError` when the limits are used.) -/
def buildShape (S : Structure d K) (a : BuildArgs d K) : Except PyErr (AShape d K) :=
  match a.shape with
  | .shape s => .ok s
  | .size dims _ => match (toVec dims : Option (Vec d K)) with
    | none => .error .value
    | some size => .ok (.box size (a.pos.getD 0) (if a.primitive then some S.basis.vectors else none))

/-- Lattice.py 466-470. -/
def dropDangling (minNeighbors : Option ℕ) (indices : List (Idx d)) (positions : List (Vec d K))
    (table : List (List (ℕ × WithTop K))) :
    Except PyErr (List (Idx d) × List (Vec d K) × List (List (ℕ × WithTop K))) :=
  match minNeighbors with
  | none => .ok (indices, positions, table)
  | some m => filterDangling indices positions table m

/-- The sites and their neighbours, lattice.py 459-473. -/
def buildData (env : Env K) (S : Structure d K) (a : BuildArgs d K) (shape : AShape d K) :
    Except PyErr (LatticeData d K) :=
  match S.buildIndices (.shape shape) a.primitive a.pos a.check a.callback a.bits with
  | .error e => .error e
  | .ok (indices, positions) => match computeNeighbors env S indices positions with
    | .error e => .error e
    | .ok table =>
      match dropDangling a.minNeighbors indices positions table with
      | .error e => .error e
      | .ok (indices', positions', table') => LatticeData.set indices' positions'
          (table'.map fun r => r.map Prod.fst) (table'.map fun r => r.map Prod.snd)

/-- `build(shape, primitive, pos, check, min_neighbors, periodic, callback, dtype)`, lattice.py
396-485.  The data are reset first (line 448). -/
def build (env : Env K) (L : Lattice d K) (a : BuildArgs d K) : Outcome (Lattice d K) Unit :=
  let L0 := { L with data := none }
  match assertReady L.struct with
  | .error e => (L0, .error e)
  | .ok () => match buildShape L.struct a with
    | .error e => (L0, .error e)
    | .ok shape => match buildData env L.struct a shape with
      | .error e => (L0, .error e)
      | .ok D =>
        match updateShape { L0 with data := some D, primitive := some a.primitive } with
        | (L1, .error e) => (L1, .error e)
        | (L1, .ok ()) => match a.periodic with
          | none => (L1, .ok ())
          | some p => setPeriodic env L1 p

/-! ### distances with periodic boundaries -/

/-- `minimum_distances(site)`, lattice.py 748-794: entry `j` for site `j`. -/
def minimumDistances (L : Lattice d K) (site : ℕ) : Except PyErr (List K) :=
  match L.data with
  | none => .error .index
  | some D => match D.positions[site]? with
    | none => .error .index
    | some p => match periodicVectors L.struct.basis D.indices L.periodicAxes
        (L.primitive.getD false) with
      | .error e => .error e
      | .ok vecs =>
        let images := vecs.flatMap fun v =>
          [L.struct.basis.translate v.2 p, L.struct.basis.translate (-v.2) p]
        .ok (D.positions.map fun q =>
          (images.map fun x => distance x q).foldl min (distance p q))

/-! ### appending -/

/-- `_compute_connection_neighbors(positions1, positions2)`, lattice.py 703-726: pairs with their
distances. -/
def connectionNeighbors (env : Env K) (S : Structure d K) (positions1 positions2 : List (Vec d K)) :
    Except PyErr (List ((ℕ × ℕ) × K)) :=
  match S.analysis with
  | none => .error .value
  | some A => match queryParams A with
    | .error e => .error e
    | .ok (_, maxDist) => .ok (positions1.zipIdx.flatMap fun p =>
        (env.ball positions2.length (fun j => distance p.1 (positions2.getD j 0)) maxDist).map
          fun j => ((p.2, j), distance p.1 (positions2.getD j 0)))

/-- `compute_connections(latt)`, lattice.py 728-746.  The tree of a lattice without data is a
`ValueError`, raised after the parameters of the query are computed. -/
def computeConnections (env : Env K) (L M : Lattice d K) : Except PyErr (List ((ℕ × ℕ) × K)) :=
  match L.data, M.data with
  | some D, some E => connectionNeighbors env L.struct D.positions E.positions
  | _, _ => match connectionNeighbors env L.struct [] [] with
    | .error e => .error e
    | .ok _ => .error .value

/-- Lattice.py 830-832. -/
def addPairs (offset : ℕ) : LatticeData d K → List ((ℕ × ℕ) × K) → Except PyErr (LatticeData d K)
  | D, [] => .ok D
  | D, p :: ps => match D.addNeighbor p.1.1 (p.1.2 + offset) (p.2 : WithTop K) with
    | .error e => .error e
    | .ok E => match E.addNeighbor (p.1.2 + offset) p.1.1 (p.2 : WithTop K) with
      | .error e => .error e
      | .ok F => addPairs offset F ps

/-- `_append(ind, pos, neighbors, dists, ax, side, sort_axis, sort_reverse, primitive)`, lattice.py
796-838.  `side` is `true` for `side > 0`.  (After an exception inside the data operations the
model keeps the old data.)  Without data the table of distances cannot be formed (`IndexError`, data.py
521); with `primitive` and `side > 0` the minimum of the cells is missing before that (`ValueError`,
lattice.py 508). -/
def appendSites (env : Env K) (L : Lattice d K) (ind : List (Idx d)) (pos : List (Vec d K))
    (nbrs : List (List ℕ)) (dists : List (List (WithTop K))) (ax : ℕ) (side : Bool)
    (sortAx : Option (Fin (d + 1))) (sortReverse : Bool) : Outcome (Lattice d K) Unit :=
  match L.data with
  | none => (L, .error (if side && L.primitive.getD false then .value else .index))
  | some D =>
    match periodicVector L.struct.basis (if side then D.indices else ind) [ax]
        (L.primitive.getD false) with
    | .error e => (L, .error e)
    | .ok v =>
      let nvec := if side then v else -v
      let ind2 := ind.map (shiftIdx nvec)
      let pos2 := pos.map (L.struct.basis.translate nvec)
      match D.append env ind2 pos2 nbrs dists with
      | .error e => (L, .error e)
      | .ok E => match connectionNeighbors env L.struct D.positions pos2 with
        | .error e => ({ L with data := some E }, .error e)
        | .ok pairs => match addPairs D.positions.length E pairs with
          | .error e => ({ L with data := some E }, .error e)
          | .ok F =>
            let G := match sortAx with | none => F | some s => F.sort s sortReverse
            updateShape { L with data := some G }

/-- `append(latt, ax, side, sort_ax, sort_reverse)`, lattice.py 841-903. -/
def append (env : Env K) (L M : Lattice d K) (ax : ℕ) (side : Bool)
    (sortAx : Option (Fin (d + 1))) (sortReverse : Bool) : Outcome (Lattice d K) Unit :=
  match M.data with
  | none => (L, .error .index)
  | some E => L.appendSites env E.indices E.positions E.neighbors E.distTable ax side sortAx
      sortReverse

/-- `extend(size, ax, side, sort_ax, sort_reverse)`, lattice.py 905-950. -/
def extend (env : Env K) (L : Lattice d K) (size : K) (ax : ℕ) (side : Bool)
    (sortAx : Option (Fin (d + 1))) (sortReverse : Bool) : Outcome (Lattice d K) Unit :=
  match L.shape with
  | none => (L, .error .index)
  | some shape =>
    if ax < d then
      let dims := List.ofFn fun k : Fin d => if k.val = ax then size else shape k
      match L.struct.buildIndices (.size dims false) (L.primitive.getD false) none true none none with
      | .error e => (L, .error e)
      | .ok (ind, pos) => match computeNeighbors env L.struct ind pos with
        | .error e => (L, .error e)
        | .ok table => L.appendSites env ind pos (table.map fun r => r.map Prod.fst)
            (table.map fun r => r.map Prod.snd) ax side sortAx sortReverse
    else (L, .error .index)

/-- The loop of `repeat`, lattice.py 993-996, with the neighbour table `nbrs` that the next `_append`
reads.  `neighbors = self.data.neighbors` (line 990) is the array of the data and not a copy, and the
`remove_periodic` of the first `_append` (data.py 532, 491) writes the invalid index over its periodic
neighbours; the distances `dists` (line 991) are a separate array and keep them.  Later calls of
`_append` work on the new arrays of `set`, so the table changes only once. -/
def repeatLoop (env : Env K) (D : LatticeData d K) (ax : ℕ) (side : Bool)
    (sortAx : Option (Fin (d + 1))) (sortReverse : Bool) :
    ℕ → List (List ℕ) → Lattice d K → Outcome (Lattice d K) Unit
  | 0, _, L => (L, .ok ())
  | n + 1, nbrs, L => match L.appendSites env D.indices D.positions nbrs D.distTable ax side sortAx
      sortReverse with
    | (M, .error e) => (M, .error e)
    | (M, .ok ()) => repeatLoop env D ax side sortAx sortReverse n D.clearedNeighbors M

/-- `repeat(num, ax, side, sort_ax, sort_reverse)`, lattice.py 952-996. -/
def «repeat» (env : Env K) (L : Lattice d K) (num : ℕ) (ax : ℕ) (side : Bool)
    (sortAx : Option (Fin (d + 1))) (sortReverse : Bool) : Outcome (Lattice d K) Unit :=
  match L.data with
  | none => (L, .error .index)
  | some D => repeatLoop env D ax side sortAx sortReverse num D.neighbors L

end

/-! ### graph -/

/-- `neighbor_pairs(unique)`, lattice.py 1002-1060: pairs with their levels. -/
def neighborPairs (L : Lattice d K) (unique : Bool) : Except PyErr (List ((ℕ × ℕ) × ℕ)) :=
  match L.data with
  | none => .error .index
  | some D =>
    let valid := D.pairTable.filter fun p => decide (p.2 ≠ D.invalidDistidx)
    .ok (if unique then valid.filter fun p => decide (p.1.1 < p.1.2) else valid)

/-- A sparse matrix: numbers of rows and columns, entries. -/
structure Sparse where
  rows : ℕ
  cols : ℕ
  entry : ℕ → ℕ → ℤ

/-- `adjacency_matrix()`, lattice.py 1062-1089.  SciPy takes the size from the largest indices
(`ValueError` without any) and adds data at the same place; the numbers are stored as `int8`. -/
def adjacencyMatrix (L : Lattice d K) : Except PyErr Sparse :=
  match L.neighborPairs false with
  | .error e => .error e
  | .ok [] => .error .value
  | .ok (p :: ps) => .ok {
      rows := (ps.map fun q => q.1.1).foldl max p.1.1 + 1
      cols := (ps.map fun q => q.1.2).foldl max p.1.2 + 1
      entry := fun i j => wrapSigned 8
        (((p :: ps).filterMap fun q => if q.1 = (i, j) then some ((q.2 : ℤ) + 1) else none).sum) }

/-! ### summaries -/

section
variable [Field K] [LinearOrder K]

/-- `limits()`, lattice.py 213-223. -/
def limits (L : Lattice d K) : Except PyErr (Vec d K × Vec d K) :=
  match L.data with
  | none => .error .value
  | some D => D.getLimits

/-- `relative_position(fractions)`, lattice.py 225-240. -/
def relativePosition (L : Lattice d K) (fractions : Vec d K) : Except PyErr (Vec d K) :=
  match L.limits with
  | .error e => .error e
  | .ok (lo, hi) => .ok fun k => lo k + fractions k * (hi k - lo k)

/-- `center()`, lattice.py 242-251. -/
def center (L : Lattice d K) : Except PyErr (Vec d K) := L.relativePosition fun _ => 1 * (1 / 2)

/-- A parameter value as a number. -/
def toNum : PyVal → Except PyErr K
  | .num q => .ok (q : K)
  | _ => .error .type

/-- `self.atom(i).get("mass", 1.0)`, lattice.py 266. -/
def mass (L : Lattice d K) (i : ℕ) : Except PyErr K :=
  match L.atom i with
  | .error e => .error e
  | .ok a => match L.world.session.get a "mass" (.num 1) with
    | .error e => .error e
    | .ok v => toNum v

/-- `center_of_gravity()`, lattice.py 253-269; `none` is the empty array returned for a lattice that
has not been built.  (If the masses sum up to zero NumPy divides by zero with a warning; the result is
then not a position.) -/
def centerOfGravity (L : Lattice d K) : Except PyErr (Option (Vec d K)) :=
  match L.data with
  | none => .ok none
  | some D => match (List.range D.numSites).mapM L.mass with
    | .error e => .error e
    | .ok masses => .ok (some fun k =>
        (List.zipWith (fun m (x : Vec d K) => m * x k) masses D.positions).sum / masses.sum)

/-- `num_cells`, lattice.py 144-147. -/
def numCells (L : Lattice d K) : Except PyErr ℕ :=
  match L.data with
  | none => .error .index
  | some D => .ok (D.indices.map Idx.cell).dedup.length

/-- `volume()`, lattice.py 159-167. -/
def volume [HasSqrt K] (L : Lattice d K) : Except PyErr K :=
  match L.data with
  | none => .error .index
  | some D => .ok (L.struct.basis.cellVolume * ((D.indices.map Idx.cell).dedup.length : K))

end

/-! ### text, hash, equality -/

/-- The functions turning the parts of a lattice into text (`str`), and `hashlib.md5` as a
number. -/
structure TextEnv (d : ℕ) (K : Type*) where
  vec : Vec d K → String
  atom : Session → Atom → String
  conn : List ℕ → String
  num : K → String
  md5 : String → ℕ

/-- One line of `dumps`, lattice.py 1119-1120. -/
def dumpLine (key : String) (values : List String) : String :=
  (key ++ ":") ++ String.ofList (List.replicate (15 - (key ++ ":").length) ' ') ++
    "; ".intercalate values

/-- `dumps()`, lattice.py 1109-1121, of the dictionary `todict()` (lattice.py 1097-1107, structure.py
1331-1344).  Iterating over `None` raises `TypeError`: the connections of a lattice without atoms,
the shape of a lattice that has not been built. -/
def dumps (T : TextEnv d K) (L : Lattice d K) : Except PyErr String :=
  match L.struct.conn, L.shape with
  | none, _ => .error .type
  | some _, none => .error .type
  | some c, some shape => .ok ("\n".intercalate [
      dumpLine "vectors" ((List.finRange d).map fun i => T.vec (L.struct.basis.V · i)),
      dumpLine "atoms" (L.struct.atoms.map (T.atom L.world.session)),
      dumpLine "positions" (L.struct.positions.map T.vec),
      dumpLine "connections" ((List.range c.size).map fun i =>
        T.conn ((List.range c.size).map (c.entry i))),
      dumpLine "shape" ((List.finRange d).map fun k => T.num (shape k))])

/-- `__hash__()`, lattice.py 1154-1158. -/
def hash (T : TextEnv d K) (L : Lattice d K) : Except PyErr ℕ :=
  match L.dumps T with
  | .error e => .error e
  | .ok s => .ok (T.md5 s)

/-- `self == other`, lattice.py 1160-1161. -/
def eq (T : TextEnv d K) (L M : Lattice d K) : Except PyErr Bool :=
  match L.hash T, M.hash T with
  | .error e, _ => .error e
  | .ok _, .error e => .error e
  | .ok a, .ok b => .ok (decide (a = b))

/-! ### histories -/

section
variable [Field K] [LinearOrder K] [FloorRing K] [HasSqrt K]

/-- Calls on a lattice. -/
inductive Op (d : ℕ) (K : Type*) where
  | conf (op : World.Op K)
  | build (a : BuildArgs d K)
  | setPeriodic (axis : PAxis)

/-- Execute one call. -/
def call (env : Env K) (L : Lattice d K) : Op d K → Outcome (Lattice d K) Unit
  | .conf op => let r := L.world.call env op; ({ L with world := r.1 }, r.2)
  | .build a => L.build env a
  | .setPeriodic axis => L.setPeriodic env axis

/-- Execute a history of calls, each of which may raise. -/
def run (env : Env K) (L : Lattice d K) (ops : List (Op d K)) : Lattice d K :=
  ops.foldl (fun L op => (L.call env op).1) L

end

end Lattice

end Lattpy

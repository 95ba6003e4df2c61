import Verif.Model.Basis
import Verif.Model.Atom
import Verif.Model.Shape
import Verif.Model.Data
import Mathlib.Data.List.Sublists

/-!
# Model of `lattpy/structure.py` (`LatticeStructure`)

The object is the record `Structure`.  Methods that may raise *after* having changed the object
return the object together with the result (`Outcome`).
-/

set_option autoImplicit false

namespace Lattpy

/-- A lattice index `(n_1, ..., n_d, alpha)`. -/
abbrev Idx (d : ℕ) := Fin (d + 1) → ℤ

namespace Idx
variable {d : ℕ}

/-- The cell of an index: `idx[:-1]`. -/
def cell (idx : Idx d) : Fin d → ℤ := fun k => idx k.castSucc

/-- The atom number of an index: `idx[-1]`. -/
def alpha (idx : Idx d) : ℤ := idx (Fin.last d)

/-- `np.append(n, alpha)`. -/
def mk (n : Fin d → ℤ) (alpha : ℤ) : Idx d := Fin.snoc n alpha

end Idx

/-- State of the object after a call and what the call returned or raised. -/
abbrev Outcome (σ α : Type*) := σ × Except PyErr α

/-- Python list indexing `l[i]` with negative indices counted from the end (`none`: `IndexError`). -/
def pyGet {α : Type*} (l : List α) (i : ℤ) : Option α :=
  if 0 ≤ i then l[i.toNat]? else if -(l.length : ℤ) ≤ i then l[(l.length + i).toNat]? else none

/-- Position in an axis of length `n` addressed by `i` (`none`: `IndexError`). -/
def pyIdx (n : ℕ) (i : ℤ) : Option ℕ :=
  if 0 ≤ i ∧ i < n then some i.toNat
  else if -(n : ℤ) ≤ i ∧ i < 0 then some (n + i).toNat else none

/-! ## Stacking of index arrays -/

/-- `np.ravel(arrays, order="F")` for a list of equally long arrays with `c` columns: the array
number varies fastest, then the row, then the column. -/
def ravelF {α : Type*} {c : ℕ} (rows : ℕ) (arrays : List (List (Fin c → α))) : List α :=
  (List.finRange c).flatMap fun k => (List.range rows).flatMap fun n =>
    arrays.filterMap fun a => a[n]?.map fun r => r k

/-- `flat.reshape(c, int(flat.shape[0] / c)).T`; `ValueError` if the sizes do not fit. -/
def reshapeT {α : Type*} (c : ℕ) (flat : List α) : Except PyErr (List (Fin c → α)) :=
  if h : flat.length = c * (flat.length / c) then
    .ok ((List.finRange (flat.length / c)).map fun m k =>
      flat[k.val * (flat.length / c) + m.val]'(by
        have hk := k.isLt
        have hm := m.isLt
        have h1 : (k.val + 1) * (flat.length / c) ≤ c * (flat.length / c) :=
          Nat.mul_le_mul_right _ hk
        rw [Nat.succ_mul] at h1
        omega))
  else .error .value

/-- Indices of all atoms in the given cells, structure.py 461-466 and 1168-1172:
`arrays = [np.c_[nvecs, i * ones] for i in range(num_base)]`, then ravel and reshape. -/
def stackIndices {d : ℕ} (numBase : ℕ) (nvecs : List (Fin d → ℤ)) : Except PyErr (List (Idx d)) :=
  reshapeT (d + 1) (ravelF nvecs.length
    ((List.range numBase).map fun i : ℕ => nvecs.map fun n => Idx.mk n (i : ℤ)))

/-! ## Neighbour dictionaries -/

/-- `collections.OrderedDict` from distance to a list of indices, in insertion order. -/
abbrev NDict (d : ℕ) (K : Type*) := List (K × List (Idx d))

namespace NDict
variable {d : ℕ} {K : Type*} [LinearOrder K]

/-- `list(D.keys())`. -/
def keys (D : NDict d K) : List K := D.map Prod.fst

/-- `D.setdefault(dist, list()).extend(xs)`. -/
def extend : NDict d K → K → List (Idx d) → NDict d K
  | [], k, xs => [(k, xs)]
  | (k', ys) :: D, k, xs => if k' = k then (k', ys ++ xs) :: D else (k', ys) :: extend D k xs

/-- `D[dist]` (`none`: `KeyError`). -/
def get? (D : NDict d K) (k : K) : Option (List (Idx d)) := List.lookup k D

/-- `sum(len(x) for x in D.values())`. -/
def count (D : NDict d K) : ℕ := (D.map fun p => p.2.length).sum

/-- `list(sorted(D.keys()))`. -/
def sortedKeys (D : NDict d K) : List K := D.keys.insertionSort (· ≤ ·)

end NDict

/-! ## The object -/

/-- The `_connections` array of shape `(size, size)`; entries outside are 0. -/
structure ConnMatrix where
  size : ℕ
  entry : ℕ → ℕ → ℕ

namespace ConnMatrix

/-- `np.zeros((n, n))`, structure.py 264. -/
def zeros (n : ℕ) : ConnMatrix := ⟨n, fun _ _ => 0⟩

/-- `connections.fill(v)`, structure.py 446. -/
def fill (c : ConnMatrix) (v : ℕ) : ConnMatrix :=
  ⟨c.size, fun i j => if i < c.size ∧ j < c.size then v else 0⟩

/-- `connections[i, j] = v; connections[j, i] = v`, structure.py 412-413 (indices in range). -/
def setPair (c : ConnMatrix) (i j v : ℕ) : ConnMatrix :=
  ⟨c.size, fun a b => if (a = i ∧ b = j) ∨ (a = j ∧ b = i) then v else c.entry a b⟩

/-- All entries in row-major order. -/
def entries (c : ConnMatrix) : List ℕ :=
  (List.range c.size).flatMap fun i => (List.range c.size).map fun j => c.entry i j

/-- `np.all(connections == 0)`, structure.py 527. -/
def allZero (c : ConnMatrix) : Bool := c.entries.all fun v => decide (v = 0)

/-- `int(np.max(connections))`, structure.py 158, 571; `ValueError` for an empty array. -/
def max? (c : ConnMatrix) : Except PyErr ℕ :=
  match c.entries with
  | [] => .error .value
  | x :: xs => .ok (xs.foldl max x)

end ConnMatrix

/-- The results stored by `analyze` (structure.py 111-120, 516-518, 613-616). -/
structure Analysis (d : ℕ) (K : Type*) where
  /-- `_raw_base_neighbors` -/
  rawNeighbors : List (List (NDict d K))
  /-- `_raw_distance_matrix` -/
  rawDistances : List (List (List K))
  /-- `_raw_num_neighbors` -/
  rawNum : List (List ℕ)
  /-- `_base_neighbors` -/
  base : List (NDict d K)
  /-- `_distance_matrix` -/
  distMatrix : List (List (List K))
  /-- `_num_neighbors` (an `int8` array) -/
  numNeighbors : List ℤ
  /-- `_distances` -/
  distances : List (List K)

/-- `LatticeStructure`, structure.py 103-120.  `frozen` says that `_positions` has been replaced by
an `ndarray` (line 454), which has no method `append`. -/
structure Structure (d : ℕ) (K : Type*) where
  basis : LatticeBasis d K
  atoms : List Atom
  positions : List (Vec d K)
  frozen : Bool
  numBase : ℕ
  conn : Option ConnMatrix
  analysis : Option (Analysis d K)

namespace Structure
variable {d : ℕ} {K : Type*}

/-- `LatticeStructure(basis)` without keyword arguments, structure.py 103-120. -/
def ofBasis (b : LatticeBasis d K) : Structure d K :=
  { basis := b, atoms := [], positions := [], frozen := false, numBase := 0, conn := none,
    analysis := none }

/-! ### analysis -/

section analysis
variable [Field K] [LinearOrder K] [FloorRing K] [HasSqrt K]

/-- `DIST_DECIMALS`, structure.py 101. -/
def distDecimals : ℕ := 6

/-- `get_positions(indices)`, structure.py 653-679 (also 470, 802-803): `IndexError` for an atom
number out of range. -/
def getPositions (S : Structure d K) (indices : List (Idx d)) : Except PyErr (List (Vec d K)) :=
  indices.mapM fun idx => match pyGet S.positions idx.alpha with
    | some r => .ok (S.basis.translate idx.cell r)
    | none => .error .index

/-- The distances and indices found around a position, structure.py 480-485: a query for all
points of the tree.  (The query never returns padding here, see `queryRow_eq`.) -/
def queryRow (env : Env K) (indices : List (Idx d)) (points : List (Vec d K)) (pos : Vec d K) :
    List (K × Idx d) :=
  let q := kdQuery env points points.length ⊤ [pos] (some distDecimals) true false
  (q.dists.flatten.zip q.neighbors.flatten).filterMap fun p =>
    match p.1, indices[p.2]? with
    | some x, some idx => some (x, idx)
    | _, _ => none

/-- `neighbor_array[a1][a2]` after the loop of lines 485-488 over the query result of `a1`. -/
def pairDict (row : List (K × Idx d)) (a2 : ℕ) : NDict d K :=
  (row.filter fun p => decide (p.1 ≠ 0) && decide (p.2.alpha = (a2 : ℤ))).foldl
    (fun D p => NDict.extend D p.1 [p.2]) []

/-- Lines 491-497: keep the first `maxDistidx` distances. -/
def trimDict (maxDistidx : ℕ) (D : NDict d K) : NDict d K :=
  let kept := D.sortedKeys.take maxDistidx
  D.filter fun p => decide (p.1 ∈ kept)

/-- `_compute_base_neighbors(max_distidx)`, structure.py 450-499 (the result; line 454 replaces
`_positions` by an array). -/
def computeBaseNeighbors (env : Env K) (S : Structure d K) (maxDistidx : ℕ) :
    Except PyErr (List (List (NDict d K))) :=
  match S.basis.getNeighborCells (2 * maxDistidx) true (fun a b => decide (a ≤ b)) with
  | .error e => .error e
  | .ok nvecs =>
    match stackIndices S.numBase nvecs with
    | .error e => .error e
    | .ok indices =>
      match S.getPositions indices with
      | .error e => .error e
      | .ok points =>
        (List.range S.numBase).mapM fun a1 : ℕ => match S.positions[a1]? with
          | none => .error .index
          | some pos =>
            let row := queryRow env indices points pos
            .ok ((List.range S.numBase).map fun a2 : ℕ => trimDict maxDistidx (pairDict row a2))

/-- Lines 579-590 of `analyze` for atom `a1` and its row of raw neighbours: the allowed distances of
each `a2`, merged into one dictionary. -/
def mergeRow (conn : ConnMatrix) (a1 : ℕ) (raw : List (NDict d K)) : NDict d K :=
  (raw.zipIdx).foldl (fun D p =>
    (p.1.take (conn.entry a1 p.2)).foldl (fun D q => NDict.extend D q.1 q.2) D) []

/-- Lines 586-590: the row of `_distance_matrix`. -/
def distRow (conn : ConnMatrix) (a1 : ℕ) (raw : List (NDict d K)) : List (List K) :=
  raw.zipIdx.map fun p => (p.1.keys.take (conn.entry a1 p.2)).insertionSort (· ≤ ·)

/-- Lines 604-611: one row of `_distances`, zero-padded to the number of distances of the whole
unit cell. -/
def padDists (n : ℕ) (keys : List K) : List K :=
  keys.insertionSort (· ≤ ·) ++ List.replicate (n - keys.length) 0

/-- The results of `analyze` for the raw neighbours, structure.py 507-518 and 579-611.
`num_neighbors` is an `int8` array (line 600): larger numbers wrap around. -/
def analysisOf (conn : ConnMatrix) (raw : List (List (NDict d K))) : Analysis d K :=
  let base := raw.zipIdx.map fun p => mergeRow conn p.2 p.1
  let dm := raw.zipIdx.map fun p => distRow conn p.2 p.1
  let unique := dm.flatten.flatten.dedup
  { rawNeighbors := raw
    rawDistances := raw.map fun r => r.map NDict.keys
    rawNum := raw.map fun r => r.map NDict.count
    base := base
    distMatrix := dm
    numNeighbors := base.map fun D => wrapSigned 8 (D.count : ℤ)
    distances := base.map fun D => padDists unique.length D.keys }

/-- `analyze()`, structure.py 534-619.  (`_connections` is `None` only without atoms, except for
objects whose attributes were set by hand.) -/
def analyze (env : Env K) (S : Structure d K) : Outcome (Structure d K) Unit :=
  if S.atoms.isEmpty then (S, .error .noAtoms)
  else match S.conn with
    | none => (S, .error .type)
    | some conn =>
      if conn.allZero then (S, .error .noConnections)
      else match conn.max? with
        | .error e => (S, .error e)
        | .ok maxDistidx =>
          match computeBaseNeighbors env S maxDistidx with
          | .error e => ({ S with frozen := true }, .error e)
          | .ok raw => ({ S with frozen := true, analysis := some (analysisOf conn raw) }, .ok ())

end analysis

/-! ### configuration -/

/-- `add_connections(num_distances, analyze)`, structure.py 417-448; without atoms `_connections` is
`None` (`AttributeError`). -/
def addConnections [Field K] [LinearOrder K] [FloorRing K] [HasSqrt K] (env : Env K)
    (S : Structure d K) (num : ℕ) (doAnalyze : Bool) : Outcome (Structure d K) Unit :=
  match S.conn with
  | none => (S, .error .attribute)
  | some c =>
    let S' := { S with conn := some (c.fill num) }
    if doAnalyze then S'.analyze env else (S', .ok ())

/-- References to an atom accepted by `get_alpha`, `get_atom`, `add_connection`. -/
inductive AtomRef where
  | num (i : ℤ)
  | name (n : String)
  | obj (a : Atom)

/-- `get_alpha(atom)`, structure.py 270-312, as a list (`np.atleast_1d` of the result).
`list.index` finds the first element that is the object itself or equal to it (`ValueError` if
there is none). -/
def getAlpha (s : Session) (S : Structure d K) : AtomRef → Except PyErr (List ℤ)
  | .num i => .ok [i]
  | .name n => .ok ((whereIdx (fun at' => decide (PyVal.str n = s.nameAttr at')) S.atoms).map
      fun i : ℕ => (i : ℤ))
  | .obj a => match findFirst (fun at' => s.same at' a) S.atoms with
    | .error e => .error e
    | .ok (some i) => .ok [(i : ℤ)]
    | .ok none => .error .value

/-- `get_atom(atom)`, structure.py 314-359. -/
def getAtom (s : Session) (S : Structure d K) : AtomRef → Except PyErr Atom
  | .obj a => .ok a
  | .num i => match pyGet S.atoms i with
    | some a => .ok a
    | none => .error .index
  | .name n => match S.atoms.find? (fun at' => decide (PyVal.str n = s.nameAttr at')) with
    | some a => .ok a
    | none => .error .value

/-- The loop of `add_connection`, structure.py 411-413. -/
def connectPairs (num : ℕ) : Option ConnMatrix → List (ℤ × ℤ) → Except PyErr (Option ConnMatrix)
  | c, [] => .ok c
  | none, _ :: _ => .error .type
  | some c, (i, j) :: ps => match pyIdx c.size i, pyIdx c.size j with
    | some a, some b => connectPairs num (some (c.setPair a b num)) ps
    | _, _ => .error .index

/-- `add_connection(atom1, atom2, num_distances, analyze)`, structure.py 361-415.  (The pairs come
from names, which are in range, or single numbers: an `IndexError` is raised at the first pair,
before any assignment.) -/
def addConnection [Field K] [LinearOrder K] [FloorRing K] [HasSqrt K] (env : Env K) (s : Session)
    (S : Structure d K) (atom1 atom2 : AtomRef) (num : ℕ) (doAnalyze : Bool) :
    Outcome (Structure d K) Unit :=
  match S.getAlpha s atom1, S.getAlpha s atom2 with
  | .error e, _ => (S, .error e)
  | .ok _, .error e => (S, .error e)
  | .ok as, .ok bs =>
    match connectPairs num S.conn (as.flatMap fun i => bs.map fun j => (i, j)) with
    | .error e => (S, .error e)
    | .ok c =>
      let S' := { S with conn := c }
      if doAnalyze then S'.analyze env else (S', .ok ())

/-- A position argument as a point of the right dimension. -/
def toVec (l : List K) : Option (Vec d K) :=
  if h : l.length = d then some fun i => l[i.val]'(by omega) else none

/-- The position `add_atom` uses, structure.py 238-246: the origin without argument; with
`primitive` the argument is in basis coordinates; `ValueError` for a wrong dimension (in the
matrix product or the explicit check). -/
def atomPos [Field K] [LinearOrder K] (b : LatticeBasis d K) (pos : Option (List K))
    (primitive : Bool) : Except PyErr (Vec d K) :=
  match pos with
  | none => .ok (if primitive then b.transform 0 else 0)
  | some l => match (toVec l : Option (Vec d K)) with
    | none => .error .value
    | some v => .ok (if primitive then b.transform v else v)

/-- `add_atom(pos, atom, neighbors=...)` with an `Atom` object, structure.py 247-268, at the
position computed by `atomPos`. -/
def addAtomAt [Field K] [LinearOrder K] [FloorRing K] [HasSqrt K] (env : Env K)
    (S : Structure d K) (pos : Vec d K) (atom : Atom) (neighbors : ℕ) :
    Outcome (Structure d K) Unit :=
  -- line 253: `_atoms.append(atom)`
  let S1 := { S with atoms := S.atoms ++ [atom] }
  -- line 254: an ndarray has no `append`
  if S.frozen then (S1, .error .attribute)
  else
    let S2 := { S1 with positions := S.positions ++ [pos] }
    let n := S2.atoms.length
    -- line 258
    if n ≠ S2.positions.length then (S2, .error .assertion)
    else
      let S3 := { S2 with numBase := n, conn := some (ConnMatrix.zeros n) }
      if neighbors ≠ 0 then S3.addConnections env neighbors true else (S3, .ok ())

end Structure

/-- The `atom` argument of `add_atom`: an `Atom` object, or the arguments for a new one. -/
inductive AtomArg where
  | obj (a : Atom)
  | new (name : Option String) (radius color weight : PyVal) (kwargs : PyDict)

/-- A structure together with the session owning its atoms. -/
structure World (d : ℕ) (K : Type*) where
  session : Session
  struct : Structure d K

namespace World
variable {d : ℕ} {K : Type*} [Field K] [LinearOrder K] [FloorRing K] [HasSqrt K]

/-- `add_atom(pos, atom, primitive, neighbors, **kwargs)`, structure.py 175-268. -/
def addAtom (env : Env K) (w : World d K) (pos : Option (List K)) (atom : AtomArg)
    (primitive : Bool) (neighbors : ℕ) : Outcome (World d K) Unit :=
  match Structure.atomPos w.struct.basis pos primitive with
  | .error e => (w, .error e)
  | .ok p =>
    -- lines 247-248
    if p ∈ w.struct.positions then (w, .error .siteOccupied)
    else match atom with
      | .obj a =>
        let r := w.struct.addAtomAt env p a neighbors
        (⟨w.session, r.1⟩, r.2)
      | .new name radius color weight kwargs =>
        -- lines 250-251
        match w.session.create name radius color weight kwargs with
        | .error e => (w, .error e)
        | .ok s => match s.atoms.getLast? with
          | none => (⟨s, w.struct⟩, .error .assertion)
          | some a =>
            let r := w.struct.addAtomAt env p a neighbors
            (⟨s, r.1⟩, r.2)

/-- Configuration calls. -/
inductive Op (K : Type*) where
  | addAtom (pos : Option (List K)) (atom : AtomArg) (primitive : Bool) (neighbors : ℕ)
  | addConnection (atom1 atom2 : Structure.AtomRef) (num : ℕ) (doAnalyze : Bool)
  | addConnections (num : ℕ) (doAnalyze : Bool)
  | analyze

/-- Execute one call. -/
def call (env : Env K) (w : World d K) : Op K → Outcome (World d K) Unit
  | .addAtom pos atom primitive neighbors => w.addAtom env pos atom primitive neighbors
  | .addConnection a1 a2 num an =>
    let r := w.struct.addConnection env w.session a1 a2 num an
    (⟨w.session, r.1⟩, r.2)
  | .addConnections num an =>
    let r := w.struct.addConnections env num an
    (⟨w.session, r.1⟩, r.2)
  | .analyze =>
    let r := w.struct.analyze env
    (⟨w.session, r.1⟩, r.2)

/-- Execute a history of calls, each of which may raise. -/
def run (env : Env K) (w : World d K) (ops : List (Op K)) : World d K :=
  ops.foldl (fun w op => (w.call env op).1) w

end World

namespace Structure
variable {d : ℕ} {K : Type*}

/-! ### positions and neighbour queries -/

section queries
variable [Field K] [LinearOrder K]

/-- `get_position(nvec, alpha)`, structure.py 621-651. -/
def getPosition (S : Structure d K) (nvec : Option (Fin d → ℤ)) (alpha : ℤ) :
    Except PyErr (Vec d K) :=
  match pyGet S.positions alpha with
  | none => .error .index
  | some r => .ok (match nvec with
    | none => r
    | some n => fun i => r i + (S.basis.V.mulVec fun k => (n k : K)) i)

/-- `estimate_index(pos)`, structure.py 681-704. -/
def estimateIndex [FloorRing K] (S : Structure d K) (pos : Vec d K) : Fin d → ℤ :=
  fun i => rint ((S.basis.Vinv.mulVec pos) i)

/-- `indices[:, :-1] += nvec` for one row. -/
def shiftIdx (n : Fin d → ℤ) (idx : Idx d) : Idx d := Idx.mk (fun k => idx.cell k + n k) idx.alpha

/-- `get_neighbors(nvec, alpha, distidx)`, structure.py 706-756 (`nvec=None` is the zero vector). -/
def getNeighbors (S : Structure d K) (nvec : Fin d → ℤ) (alpha : ℤ) (distidx : ℤ) :
    Except PyErr (List (Idx d)) :=
  match S.analysis with
  | none => .error .notAnalyzed
  | some A => match pyGet A.base alpha with
    | none => .error .index
    | some D => match pyGet D.sortedKeys distidx with
      | none => .error .index
      | some dist => match D.get? dist with
        | none => .error .key
        | some idxs => .ok (idxs.map (shiftIdx nvec))

/-- `get_neighbor_positions(nvec, alpha, distidx)`, structure.py 758-806. -/
def getNeighborPositions (S : Structure d K) (nvec : Fin d → ℤ) (alpha : ℤ) (distidx : ℤ) :
    Except PyErr (List (Vec d K)) :=
  match S.getNeighbors nvec alpha distidx with
  | .error e => .error e
  | .ok indices => S.getPositions indices

/-- `get_neighbor_vectors(alpha, distidx, include_zero)`, structure.py 808-855. -/
def getNeighborVectors (S : Structure d K) (alpha : ℤ) (distidx : ℤ) (includeZero : Bool) :
    Except PyErr (List (Vec d K)) :=
  match S.analysis with
  | none => .error .notAnalyzed
  | some _ => match pyGet S.positions alpha with
    | none => .error .index
    | some pos0 => match S.getNeighborPositions 0 alpha distidx with
      | .error e => .error e
      | .ok pos1 => .ok ((if includeZero then 0 :: pos1 else pos1).map fun p => p - pos0)

end queries

/-! ### site generation -/

/-- The `shape` argument of the build functions: a sequence of numbers (with the information
whether NumPy stores it as integers) or a shape object. -/
inductive ShapeArg (d : ℕ) (K : Type*) where
  | size (dims : List K) (isInt : Bool)
  | shape (s : AShape d K)

section build
variable [Field K] [LinearOrder K] [FloorRing K] [HasSqrt K]

/-- `np.max(self.vectors, axis=0)`: the largest `k`-th component of a basis vector. -/
def maxVector (S : Structure d K) : Vec d K := fun k =>
  ((List.finRange d).map fun i => S.basis.vectors i k).foldl max (S.basis.vectors k k)

/-- `np.max(self.vectors, axis=0) - 0.1 * self.norms`, structure.py 966, 1047. -/
def relativeMargin (S : Structure d K) : Vec d K := fun k =>
  S.maxVector k - 1 / 10 * norm2 (S.basis.vectors k)

/-- `check_points(points, shape, relative, pos, tol)`, structure.py 919-975.  Line 966 adds floats
to the array of the given numbers in place, which raises `TypeError` for integers.  (With a shape
object of singular basis `contains` raises also for an empty list of points.) -/
def checkPoints (S : Structure d K) (points : List (Vec d K)) (shape : ShapeArg d K)
    (relative : Bool) (pos : Option (Vec d K)) (tol : K) : Except PyErr (List Bool) :=
  match shape with
  | .shape s => points.mapM fun p => s.contains p tol
  | .size dims isInt => match (toVec dims : Option (Vec d K)) with
    | none => .error .value
    | some size =>
      if relative && isInt then .error .type
      else
        let size' := if relative then size + S.relativeMargin else size
        let start : Vec d K := fun k => (pos.getD 0) k - tol
        let stop : Vec d K := fun k => start k + size' k + tol
        .ok (points.map fun x => decide (∀ k, start k ≤ x k ∧ x k ≤ stop k))

/-- `x.astype(np.int64)`: truncation towards zero. -/
def npTrunc (x : K) : ℤ := if 0 ≤ x then ⌊x⌋ else ⌈x⌉

/-- The non-empty proper subsets of the axes, structure.py 1056-1057. -/
def properAxes (d : ℕ) : List (List (Fin d)) :=
  (List.range (d - 1)).flatMap fun i => (List.finRange d).sublistsLen (i + 1)

/-- `end` with the given axes set to 0, structure.py 1058-1059. -/
def zeroAxes (stop : Vec d K) (axes : List (Fin d)) : Vec d K := fun k =>
  if k ∈ axes then 0 else stop k

/-- The estimated index range, structure.py 1053-1062. -/
def indexRange (S : Structure d K) (start stop : Vec d K) : Fin d → ℤ × ℤ := fun k =>
  (properAxes d).foldl (fun m axes =>
    let i := (S.basis.itranslate (zeroAxes stop axes)).1 k
    (min i m.1, max i m.2))
    ((S.basis.itranslate start).1 k, (S.basis.itranslate stop).1 k)

/-- Start and size of the region, structure.py 1035-1049. -/
def buildRegion (S : Structure d K) (shape : ShapeArg d K) (primitive : Bool)
    (pos : Option (Vec d K)) : Except PyErr (Vec d K × Vec d K) :=
  let raw : Except PyErr (Vec d K × Vec d K) := match shape with
    | .shape s => match s.limits with
      | .error e => .error e
      | .ok l => .ok (fun k => (l k).1, fun k => (l k).2 - (l k).1)
    | .size dims _ => match (toVec dims : Option (Vec d K)) with
      | none => .error .value
      | some size => .ok (pos.getD 0, size)
  match raw with
  | .error e => .error e
  | .ok (start, size) => .ok (start, if primitive then
      fun k => size k * S.maxVector k - 1 / 10 * norm2 (S.basis.vectors k) else size)

/-- `build_translation_vectors(shape, primitive, pos, check, dtype, oversample)`, structure.py
977-1078 (`np.dot(nvecs, vectors)` is the lattice vector `translate n 0`; the size given to
`check_points` is the array of floats computed before). -/
def buildTranslationVectors (S : Structure d K) (shape : ShapeArg d K) (primitive : Bool)
    (pos : Option (Vec d K)) (check : Bool) (bits : Option ℕ) (oversample : K) :
    Except PyErr (List (Fin d → ℤ)) :=
  match S.buildRegion shape primitive pos with
  | .error e => .error e
  | .ok (start, size) =>
    let rng := S.indexRange start (fun k => start k + size k)
    let limits : Fin d → ℤ × ℤ := fun k =>
      (npTrunc (((rng k).1 : K) - (oversample * size k + 1)),
        npTrunc (((rng k).2 : K) + (oversample * size k + 1)))
    match vindices limits (if h : 0 < d then some ⟨0, h⟩ else none) bits with
    | .error e => .error e
    | .ok nvecs =>
      if check then
        match S.checkPoints (nvecs.map fun n => S.basis.translate n 0)
            (.size (List.ofFn size) false) primitive (some start) (1 / 1000) with
        | .error e => .error e
        | .ok mask => .ok (maskRow nvecs mask)
      else .ok nvecs

/-- Boolean mask indexing `a[mask]` of two arrays; `IndexError` for a mask of another length. -/
def applyMask {α β : Type*} (a : List α) (b : List β) (mask : List Bool) :
    Except PyErr (List α × List β) :=
  if mask.length = a.length ∧ mask.length = b.length then .ok (maskRow a mask, maskRow b mask)
  else .error .index

/-- `build_indices(shape, primitive, pos, check, callback, dtype, return_pos=True)`, structure.py
1081-1194. -/
def buildIndices (S : Structure d K) (shape : ShapeArg d K) (primitive : Bool)
    (pos : Option (Vec d K)) (check : Bool)
    (callback : Option (List (Idx d) → List (Vec d K) → List Bool)) (bits : Option ℕ) :
    Except PyErr (List (Idx d) × List (Vec d K)) :=
  match S.buildTranslationVectors shape primitive pos false bits 0 with
  | .error e => .error e
  | .ok nvecs =>
    match stackIndices S.numBase nvecs,
      interweave (S.positions.map fun p => nvecs.map fun n => S.basis.translate n p) with
    | .error e, _ => .error e
    | .ok _, .error e => .error e
    | .ok indices, .ok woven =>
      -- every slot is filled, see `buildIndices_sites`
      let positions := woven.filterMap id
      let checked : Except PyErr (List (Idx d) × List (Vec d K)) :=
        if check then
          match S.checkPoints positions shape primitive pos (1 / 1000) with
          | .error e => .error e
          | .ok mask => applyMask indices positions mask
        else .ok (indices, positions)
      match checked, callback with
      | .error e, _ => .error e
      | .ok r, none => .ok r
      | .ok r, some f => applyMask r.1 r.2 (f r.1 r.2)

end build

/-! ### neighbours of the sites of a finite lattice -/

section neighbors
variable [Field K] [LinearOrder K] [FloorRing K] [HasSqrt K]

/-- Whether two atom numbers are connected at distance `e`: lines 1209-1213 change an entry only
if both numbers are in range and the distance is not in the list. -/
def connectedAt (dm : List (List (List K))) (a1 a2 : ℤ) (e : WithTop K) : Bool :=
  if 0 ≤ a1 ∧ 0 ≤ a2 then
    match dm[a1.toNat]? with
    | none => true
    | some row => if dm.length ≤ a2.toNat then true else
      match row[a2.toNat]? with
      | none => true
      | some l => l.any fun x => decide ((x : WithTop K) = e)
  else true

/-- Atom number of site `j`, `-1` for the invalid index (structure.py 1203: `indices` is padded with
a row of `-1`). -/
def alphaOf (indices : List (Idx d)) (j : ℕ) : ℤ :=
  match indices[j]? with | some idx => idx.alpha | none => -1

/-- Remove not connected neighbours from one row, structure.py 1202-1215; `a1` is the atom number
of the query site. -/
def filterRow (dm : List (List (List K))) (indices : List (Idx d)) (a1 : ℤ)
    (row : List (ℕ × WithTop K)) : List (ℕ × WithTop K) :=
  row.map fun p =>
    if connectedAt dm a1 (alphaOf indices p.1) p.2 then p else (indices.length, ⊤)

/-- Number of columns of a table, `table.shape[1]` (0 for a table without rows). -/
def tableWidth {α : Type*} : List (List α) → ℕ
  | [] => 0
  | r :: _ => r.length

/-- `_filter_neighbors(indices, neighbors, distances, x_ind)`, structure.py 1196-1244.  Tables are
lists of rows of `(neighbour, distance)`. -/
def filterNeighbors (env : Env K) (dm : List (List (List K))) (indices : List (Idx d))
    (table : List (List (ℕ × WithTop K))) (xInd : List (Idx d)) : List (List (ℕ × WithTop K)) :=
  let filtered := List.zipWith (fun row (x : Idx d) => filterRow dm indices x.alpha row) table xInd
  -- lines 1220-1223
  let sorted := filtered.map fun row => gather row (env.argsort (row.map Prod.snd))
  if sorted.all fun row => row.all fun p => decide (p.2 ≠ ⊤) then
    -- lines 1235-1237
    sorted.map fun row => row ++ [(indices.length, ⊤)]
  else
    -- lines 1240-1242
    maskCols (anyFiniteCols (tableWidth sorted) (sorted.map fun r => r.map Prod.snd)) sorted

/-- Query parameters `k` and `max_dist`, structure.py 1314-1315 (also lattice.py 564-565, 579-580,
705-706).  `np.max` of an empty array raises `ValueError`; `np.min` of the nested list
`_raw_distance_matrix` needs equally long rows (with rows of different lengths NumPy < 1.24 compares
lists and `0.1 * list` raises `TypeError`; newer versions raise `ValueError` when they form the
array). -/
def queryParams (A : Analysis d K) : Except PyErr (ℕ × K) :=
  let k := (A.rawNum.map List.sum).sum + 1
  let lens := A.rawDistances.flatten.map List.length
  match A.distances.flatten, A.rawDistances.flatten.flatten with
  | [], _ => .error .value
  | _ :: _, [] => .error .value
  | x :: xs, y :: ys =>
    if lens.all fun l => decide (some l = lens.head?) then
      .ok (k, xs.foldl max x + 1 / 10 * ys.foldl min y)
    else .error .type

/-- `compute_neighbors(indices, positions)`, structure.py 1247-1325.  Before an analysis
`np.sum(None, axis=1)` raises `AxisError`, a `ValueError`. -/
def computeNeighbors (env : Env K) (S : Structure d K) (indices : List (Idx d))
    (positions : List (Vec d K)) : Except PyErr (List (List (ℕ × WithTop K))) :=
  match S.analysis with
  | none => .error .value
  | some A => match queryParams A with
    | .error e => .error e
    | .ok (k, maxDist) =>
      let q := kdQuery env positions k (maxDist : WithTop K) positions (some distDecimals) false true
      .ok (filterNeighbors env A.distMatrix indices
        (List.zipWith List.zip q.neighbors q.dists) indices)

end neighbors

/-! ### dictionaries -/

/-- The dictionary of `todict()`, structure.py 1331-1344. -/
structure SDict (d : ℕ) (K : Type*) where
  vectors : Matrix (Fin d) (Fin d) K
  atoms : List Atom
  positions : List (Vec d K)
  connections : Option ConnMatrix

/-- `todict()`, structure.py 1331-1344. -/
def toDict [Field K] [LinearOrder K] (S : Structure d K) : SDict d K :=
  { vectors := S.basis.vectors, atoms := S.atoms, positions := S.positions, connections := S.conn }

/-- The loop of `fromdict`, structure.py 1361-1362. -/
def addAll [Field K] [LinearOrder K] [FloorRing K] [HasSqrt K] (env : Env K) :
    Structure d K → List (Vec d K × Atom) → Except PyErr (Structure d K)
  | S, [] => .ok S
  | S, (p, a) :: rest =>
    if p ∈ S.positions then .error .siteOccupied
    else match S.addAtomAt env p a 0 with
      | (S', .ok ()) => addAll env S' rest
      | (_, .error e) => .error e

/-- `fromdict(d)`, structure.py 1346-1365. -/
def fromDict [Field K] [LinearOrder K] [FloorRing K] [HasSqrt K] (env : Env K) (D : SDict d K) :
    Except PyErr (Structure d K) :=
  match LatticeBasis.init D.vectors with
  | .error e => .error e
  | .ok b => match addAll env (ofBasis b) (D.positions.zip D.atoms) with
    | .error e => .error e
    | .ok S => match ({ S with conn := D.connections } : Structure d K).analyze env with
      | (S', .ok ()) => .ok S'
      | (_, .error e) => .error e

end Structure

end Lattpy

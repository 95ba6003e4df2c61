import Verif.Model.Lattice

/-!
# Matrices assembled from the data map

`Lattice.dmap` (lattice.py 998-1000), `DataMap.zeros` (data.py 142-162), the assignment of values to a
mask (`data[mask] = value`, NumPy), and the matrices `build_csr`, `build_bsr` (data.py 164-206).  This is
the way of building a Hamiltonian described in README.md 221-235.
-/

set_option autoImplicit false

namespace Lattpy

/-- NumPy's `data[mask] = value` for a boolean mask: `IndexError` if the mask has another length. -/
def maskSet {α : Type*} (data : List α) (mask : List Bool) (value : α) : Except PyErr (List α) :=
  if mask.length = data.length then
    .ok (List.zipWith (fun x b => if b then value else x) data mask)
  else .error .index

namespace DataMap

/-- `zeros(norb)`, data.py 142-162.  The values are numbers without `norb`, square matrices of this
size with `norb`. -/
def zeros {α : Type*} [Zero α] (m : DataMap) : List α := List.replicate m.size 0

/-- The masks of the data map a value can be assigned to. -/
inductive Mask where
  | onsite (alpha : Option ℤ)
  | hopping (distidx : Option ℤ)

/-- The mask itself, data.py 107-140. -/
def Mask.get (m : DataMap) : Mask → List Bool
  | .onsite alpha => m.onsite alpha
  | .hopping distidx => m.hopping distidx

/-- `data = dmap.zeros(); data[mask1] = value1; data[mask2] = value2; …`, README.md 228-231. -/
def fill {α : Type*} [Zero α] (m : DataMap) (assigns : List (Mask × α)) : Except PyErr (List α) :=
  assigns.foldlM (fun data p => maskSet data (p.1.get m) p.2) m.zeros

/-- The shape SciPy gives to the matrix of `build_csr(data)` if none is given (data.py 164-183): one
more than the largest row and column; there is no largest element of an empty map (`ValueError`). -/
def csrShape (m : DataMap) : Except PyErr (ℕ × ℕ) :=
  match m.rows.max?, m.cols.max? with
  | some r, some c => .ok (r + 1, c + 1)
  | _, _ => .error .value

/-- Block `(i, j)` of `bsr_matrix((data, indices, indptr))`, data.py 185-206: SciPy adds the blocks at
the same place. -/
def bsrEntry {α : Type*} [AddCommMonoid α] (m : DataMap) (data : List α) (i j : ℕ) : α :=
  ((bsrBlocks m.indicesIndptr.1 m.indicesIndptr.2).filterMap fun b =>
    if (b.1, b.2.1) = (i, j) then data[b.2.2]? else none).sum

end DataMap

/-- `dmap()`, lattice.py 998-1000; the map is kept by the data object (data.py 619-632).  Before a
lattice is built its tables are one-dimensional and `indices[:, -1]` raises `IndexError`. -/
def Lattice.dmap {d : ℕ} {K : Type*} (argsort : List ℕ → List ℕ) (L : Lattice d K) :
    Outcome (Lattice d K) DataMap :=
  match L.data with
  | none => (L, .error .index)
  | some D => ({ L with data := some (D.map argsort).2 }, .ok (D.map argsort).1)

end Lattpy

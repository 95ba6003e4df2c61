import Verif.Props.PeriodicChange

/-!
Runs of whole programs over the rational numbers with exhaustive neighbour search, evaluated by the
kernel: `_append` (lattice.py 796-903), `set_periodic` (lattice.py 645-701) and `build` with
`min_neighbors` (lattice.py 396-505).
-/

namespace Lattpy

namespace Runs

/-- The chain with `nb` neighbour shells. -/
def chain (nb : ℕ) : Lattice 1 ℚ :=
  Lattice.run (Env.brute ℚ) (Lattice.ofWorld ⟨⟨0, [], []⟩, Structure.ofBasis ⟨1, 1⟩⟩)
    [.conf (.addAtom none (.new (some "A") .none .none .none []) false 0),
      .conf (.addConnections nb true)]

/-- The chain with the atoms A at 0 and B at 1/3 and `nb` neighbour shells. -/
def dimer (nb : ℕ) : Lattice 1 ℚ :=
  Lattice.run (Env.brute ℚ) (Lattice.ofWorld ⟨⟨0, [], []⟩, Structure.ofBasis ⟨1, 1⟩⟩)
    [.conf (.addAtom none (.new (some "A") .none .none .none []) false 0),
      .conf (.addAtom (some [1 / 3]) (.new (some "B") .none .none .none []) false 0),
      .conf (.addConnections nb true)]

/-- The square lattice with nearest neighbours. -/
def square : Lattice 2 ℚ :=
  Lattice.run (Env.brute ℚ) (Lattice.ofWorld ⟨⟨0, [], []⟩, Structure.ofBasis ⟨1, 1⟩⟩)
    [.conf (.addAtom none (.new (some "A") .none .none .none []) false 0),
      .conf (.addConnections 1 true)]

end Runs

/-- C60 and C64 fail together: the 5 × 5 square lattice built with `min_neighbors=3` loses its four
corners, and `set_periodic([0, 1])` succeeds.  The removed corners left gaps in the rows of their
neighbours, and the periodic neighbours are written over regular ones: site 4, at (1, 1), has the
neighbour 0, at (0, 1), but site 0 has no longer the neighbour 4. -/
theorem C64_min_neighbors_fails :
    let env := Env.brute ℚ
    let L1 := Runs.square.build env { shape := .size [4, 4] false, minNeighbors := some 3 }
    let L2 := L1.1.setPeriodic env (.axes [0, 1])
    L1.2 = .ok () ∧ L2.2 = .ok () ∧ L1.1.numSites = 21 ∧
    (L1.1.position 0).toOption.map List.ofFn = some [0, 1] ∧
    (L1.1.position 4).toOption.map List.ofFn = some [1, 1] ∧
    L1.1.neighbors 0 none false = .ok [1, 4] ∧ L1.1.neighbors 4 none false = .ok [0, 3, 5, 9] ∧
    L2.1.neighbors 0 none false = .ok [1, 18] ∧
    L2.1.neighbors 4 none false = .ok [0, 3, 5, 9] := by
  decide +kernel

/-- C64 fails for lattices shorter than twice the range of the neighbours: on the ring of five sites
with three neighbour shells the sites 0 and 3 are at the distance 2 from each other, as
`minimum_distances` says, but site 3 stays the third neighbour that it is in the open chain, and is
not among the second neighbours of site 0. -/
theorem C64_level_fails :
    let env := Env.brute ℚ
    let L := (Runs.chain 3).build env
      { shape := .size [4] false, periodic := some (.axes [0]) }
    L.2 = .ok () ∧ L.1.numSites = 5 ∧ L.1.periodicAxes = [0] ∧
    (L.1.minimumDistances 0).toOption = some [0, 1, 2, 2, 1] ∧
    L.1.neighbors 0 (some 0) false = .ok [1, 4] ∧ L.1.neighbors 0 (some 1) false = .ok [2] ∧
    L.1.neighbors 0 (some 2) false = .ok [3] := by
  decide +kernel

/-- C67 and C66 fail when all periodic neighbours are regular neighbours already: the chain of three
sites ("at least three atoms big", lattice.py 670) with two neighbour shells.  `set_periodic(0)`
succeeds but does not record the axis (lattice.py 698-699), so that `minimum_distances` says that the
ends of the ring are at the distance 2. -/
theorem C67_unrecorded_fails :
    let env := Env.brute ℚ
    let L1 := (Runs.chain 2).build env { shape := .size [2] false }
    let L2 := L1.1.setPeriodic env (.axes [0])
    L1.2 = .ok () ∧ L2.2 = .ok () ∧ L2.1.numSites = 3 ∧ L2.1.periodicAxes = [] ∧
    (L2.1.minimumDistances 0).toOption = some [0, 1, 2] := by
  decide +kernel

/-- C64 fails, `set_periodic` raises `ValueError`: three whole cells of two atoms with three
neighbour shells.  Site 0 needs six slots (the image of site 0 itself is among the neighbours found),
but the table has five, the largest number of neighbours of a site of the open lattice. -/
theorem C64_overflow_fails :
    let env := Env.brute ℚ
    let L1 := (Runs.dimer 3).build env { shape := .size [5 / 2] false }
    L1.2 = .ok () ∧ L1.1.numSites = 6 ∧
    (L1.1.setPeriodic env (.axes [0])).2 = .error .value := by
  decide +kernel

/-- C68 fails if the parts have no site with all its neighbours: two chains of four sites with two
neighbour shells.  The rows of the joined table are as wide as those of the parts, with three slots,
and `add_neighbors` drops what does not fit without an error (see `C54_full_row_fails`).  Site 3
lists site 4, but site 4 does not list site 3; in the chain of eight sites built directly both have
four neighbours. -/
theorem C68_full_row_fails :
    let env := Env.brute ℚ
    let L1 := (Runs.chain 2).build env { shape := .size [3] false }
    let L2 := L1.1.append env L1.1 0 true none false
    let M := (Runs.chain 2).build env { shape := .size [7] false }
    L1.2 = .ok () ∧ L2.2 = .ok () ∧ M.2 = .ok () ∧ L2.1.numSites = 8 ∧ M.1.numSites = 8 ∧
    L2.1.neighbors 3 none false = .ok [2, 1, 4] ∧ L2.1.neighbors 4 none false = .ok [5, 6, 2] ∧
    M.1.neighbors 3 none false = .ok [2, 4, 1, 5] ∧
    M.1.neighbors 4 none false = .ok [3, 5, 2, 6] := by
  decide +kernel

/-- C68 fails for more than one atom: across the interface all pairs within the largest distance are
linked, connected or not (lattice.py 703-726), and the next larger stored distance is taken.  Atoms
at 0 and 1/3 with one neighbour shell: the connections have the lengths 1/3 and 1.  Three cells
appended to three cells: site 5 at 7/3 lists site 6 at 3, at the level of the distance 1 (the
distance is 2/3, and built directly these two are no neighbours).  The wrong link fills the row, so
that the link of the sites 5 and 7, at the distance 1, is missing from the list of site 5. -/
theorem C68_spurious_fails :
    let env := Env.brute ℚ
    let L1 := (Runs.dimer 1).build env { shape := .size [5 / 2] false }
    let L2 := L1.1.append env L1.1 0 true none false
    let M := (Runs.dimer 1).build env { shape := .size [11 / 2] false }
    L1.2 = .ok () ∧ L2.2 = .ok () ∧ M.2 = .ok () ∧ L2.1.numSites = 12 ∧ M.1.numSites = 12 ∧
    (L2.1.position 5).toOption.map List.ofFn = some [7 / 3] ∧
    (L2.1.position 6).toOption.map List.ofFn = some [3] ∧
    (L2.1.position 7).toOption.map List.ofFn = some [10 / 3] ∧
    (M.1.position 5).toOption.map List.ofFn = some [7 / 3] ∧
    (M.1.position 6).toOption.map List.ofFn = some [3] ∧
    (M.1.position 7).toOption.map List.ofFn = some [10 / 3] ∧
    L2.1.neighbors 5 (some 1) false = .ok [3, 6] ∧ L2.1.neighbors 6 (some 1) false = .ok [8, 4] ∧
    L2.1.neighbors 7 (some 1) false = .ok [9, 5] ∧
    M.1.neighbors 5 none false = .ok [4, 3, 7] ∧ M.1.neighbors 6 none false = .ok [7, 4, 8] ∧
    M.1.neighbors 7 none false = .ok [6, 5, 9] := by
  decide +kernel

/-- C68 fails for a second `append` on the negative side: the translation is that of the appended
lattice (lattice.py 813-816) and not the extent of the lattice reached so far, so that the sites of
the second piece lie on those of the first. -/
theorem C68_left_twice_fails :
    let env := Env.brute ℚ
    let L := (Runs.chain 1).build env { shape := .size [3] false }
    let L1 := L.1.append env L.1 0 false none false
    let L2 := L1.1.append env L.1 0 false none false
    L.2 = .ok () ∧ L1.2 = .ok () ∧ L2.2 = .ok () ∧ L2.1.numSites = 12 ∧
    (L2.1.position 4).toOption.map List.ofFn = some [-4] ∧
    (L2.1.position 8).toOption.map List.ofFn = some [-4] ∧
    L2.1.neighbors 0 none false = .ok [1, 7] ∧ L2.1.neighbors 11 none false = .ok [10, 0] := by
  decide +kernel

end Lattpy

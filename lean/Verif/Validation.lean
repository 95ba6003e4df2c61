import Verif.Props.LatticeRuns

/-!
The tests of the project (lattpy/tests/test_lattice.py, test_data.py) run on the model, over the
rational numbers and with exhaustive neighbour search.  These are tests of the model, no proofs about
the program: they show that the model computes what the authors expect of the program.  `#guard`
evaluates a statement and fails if it is false; nothing is added to the environment.

`assert_elements_equal1d` (test_lattice.py 73-77) only asserts that the numbers of different elements
agree: the comparison of the elements is returned and nobody looks at it.  The lists below are the
computed ones.  Two of them have other elements than the test expects, `neighbors(23, 1)` at line 655
and `neighbors(1)` at line 664; the expected lists there are wrong for the square lattice, and the
tests pass all the same.
-/

namespace Lattpy.Validation

/-- The neighbour search. -/
def env : Env ℚ := Env.brute ℚ

/-- `Lattice(np.eye(d))` with one atom and `add_connections(nb)`; also `simple_chain(neighbors=nb)`,
`simple_square(neighbors=nb)` and `simple_cubic(neighbors=nb)`. -/
def simple (d nb : ℕ) : Lattice d ℚ :=
  Lattice.run env (Lattice.ofWorld ⟨⟨0, [], []⟩, Structure.ofBasis ⟨1, 1⟩⟩)
    [.conf (.addAtom none (.new none .none .none .none []) false 0),
      .conf (.addConnections nb true)]

/-- The structure of `test_alpha`, `test_atom` and `test_position`, test_lattice.py 390-432. -/
def twoAtoms : Lattice 2 ℚ :=
  Lattice.run env (Lattice.ofWorld ⟨⟨0, [], []⟩, Structure.ofBasis ⟨1, 1⟩⟩)
    [.conf (.addAtom (some [0, 0]) (.new (some "A") .none .none .none []) false 0),
      .conf (.addAtom (some [1 / 2, 1 / 2]) (.new (some "B") .none .none .none []) false 0),
      .conf (.addConnection (.name "A") (.name "A") 1 false),
      .conf (.addConnection (.name "A") (.name "B") 1 false), .conf .analyze]

/-- `build(size, primitive)`. -/
def built {d : ℕ} (L : Lattice d ℚ) (size : List ℚ) (primitive : Bool := false) : Lattice d ℚ :=
  (L.build env { shape := .size size false, primitive := primitive }).1

/-- `set_periodic(axes)`. -/
def periodic {d : ℕ} (L : Lattice d ℚ) (axes : List ℕ) : Lattice d ℚ :=
  (L.setPeriodic env (.axes axes)).1

/-- `neighbors(site)` of several sites. -/
def nbrs {d : ℕ} (L : Lattice d ℚ) (sites : List ℕ) : List (Option (List ℕ)) :=
  sites.map fun i => (L.neighbors i none false).toOption

/-- `neighbors(site, distidx)` of several sites. -/
def level {d : ℕ} (L : Lattice d ℚ) (k : ℕ) (sites : List ℕ) : List (Option (List ℕ)) :=
  sites.map fun i => (L.neighbors i (some k) false).toOption

/-- A vector as a list. -/
def point {d : ℕ} (p : Except PyErr (Vec d ℚ)) : Option (List ℚ) := p.toOption.map List.ofFn

/-- `data`, if the lattice is built. -/
def data {d : ℕ} {α : Type} (L : Lattice d ℚ) (f : LatticeData d ℚ → α) : Option α := L.data.map f

/-! ## test_lattice.py -/

-- `test_volume`, 382-387.
#guard (built (simple 2 1) [4, 4]).volume.toOption = some 25

-- `test_alpha`, 390-402.
#guard ([0, 1, 2, 3].map fun i => ((built twoAtoms [4, 4]).alpha i).toOption) =
    [some 0, some 1, some 0, some 1]

-- `test_position`, 420-432.
#guard ([0, 1, 2, 3].map fun i => point ((built twoAtoms [4, 4]).position i)) =
    [some [0, 0], some [1 / 2, 1 / 2], some [0, 1], some [1 / 2, 3 / 2]]

-- `test_center`, 435-444, without the 121 sites of the first case.
#guard point (built (simple 2 1) [3, 3]).center = some [3 / 2, 3 / 2] ∧
    point (built (simple 2 1) [6, 3]).center = some [3, 3 / 2]

-- `test_superindex_from_position` and `test_superindex_from_index`, 459-476.
#guard let L := built (simple 2 1) [4, 4]
    L.numSites = 25 ∧
    ((List.range 25).all fun i => match L.position i with
      | .ok p => (L.superindexFromPos p (1 / 10000)).toOption == some (some i)
      | .error _ => false) = true ∧
    ((List.range 25).all fun i => match L.data with
      | some D => match D.indices[i]? with
        | some ind => (L.superindexFromIndex ind).toOption == some (some i)
        | none => false
      | none => false) = true

-- `test_build_min_neighbors`, 495-501.
#guard let L := (simple 2 1).build env { shape := .shape (.circle 0 5), minNeighbors := some 2 }
    L.2 = .ok () ∧ (L.1.limits.toOption.map fun p => (List.ofFn p.1, List.ofFn p.2)) =
      some ([-4, -4], [4, 4])

/-- The structure of `test_build_exceptions` before `add_connections`. -/
def bare : Lattice 2 ℚ :=
  Lattice.run env (Lattice.ofWorld ⟨⟨0, [], []⟩, Structure.ofBasis ⟨1, 1⟩⟩)
    [.conf (.addAtom none (.new none .none .none .none []) false 0)]

-- `test_build_exceptions`, 504-517.
#guard (bare.build env { shape := .size [5, 5] false }).2 = .error .noConnections
#guard ((Lattice.run env bare [.conf (.addConnections 1 false)]).build env
    { shape := .size [5, 5] false }).2 = .error .notAnalyzed
#guard ((Lattice.run env bare [.conf (.addConnections 1 false), .conf .analyze]).build env
    { shape := .size [5, 5, 5] false }).2 = .error .value

-- `test_compute_connections`, 556-577.
#guard let L := built (simple 2 1) [4, 4]
    let at_ := fun p => ((simple 2 1).build env { shape := .size [4, 4] false, pos := some p }).1
    ((L.computeConnections env (at_ ![5, 0])).toOption.map fun l => l.map Prod.fst) =
      some [(20, 0), (21, 1), (22, 2), (23, 3), (24, 4)] ∧
    ((L.computeConnections env (at_ ![5, 1])).toOption.map fun l => l.map Prod.fst) =
      some [(21, 0), (22, 1), (23, 2), (24, 3)]

-- `test_periodic_nearest`, 580-609.
#guard nbrs (periodic (built (simple 1 1) [9]) [0]) [0] = [some [1, 9]] ∧
    nbrs (periodic (built (simple 2 1) [4, 4]) [0]) [0, 1, 2, 3, 4] =
      [some [1, 5, 20], some [0, 2, 6, 21], some [1, 3, 7, 22], some [2, 4, 8, 23],
        some [3, 9, 24]] ∧
    nbrs (periodic (built (simple 2 1) [4, 4]) [1]) [0, 5, 10, 15, 20] =
      [some [1, 5, 4], some [0, 6, 10, 9], some [5, 11, 15, 14], some [10, 16, 20, 19],
        some [15, 21, 24]] ∧
    nbrs (periodic (built (simple 2 1) [4, 4]) [0, 1]) [0, 4, 20, 24] =
      [some [1, 5, 4, 20], some [3, 9, 0, 24], some [15, 21, 0, 24], some [19, 23, 4, 20]]

-- `test_periodic_next_nearest`, 628-655.
#guard level (periodic (built (simple 1 2) [9]) [0]) 1 [0] = [some [2, 8]] ∧
    level (periodic (built (simple 2 2) [4, 4]) [0]) 1 [0, 1, 2, 3, 4] =
      [some [6, 21], some [5, 7, 20, 22], some [6, 8, 21, 23], some [7, 9, 22, 24],
        some [8, 23]] ∧
    level (periodic (built (simple 2 2) [4, 4]) [1]) 1 [0, 5, 10, 15, 20] =
      [some [6, 9], some [1, 11, 4, 14], some [6, 16, 9, 19], some [11, 21, 14, 24],
        some [16, 19]] ∧
    level (periodic (built (simple 2 2) [4, 4]) [0, 1]) 1 [0, 4, 20, 23] =
      [some [6, 9, 21, 24], some [8, 5, 20, 23], some [16, 1, 4, 19], some [17, 19, 2, 4]]

-- `test_periodic_small`, 658-664.
#guard nbrs (((built (simple 2 1) [2, 2] true).setPeriodic env (.flag true)).1) [0, 1] =
    [some [1, 2], some [0, 3]]

-- `test_periodic_notbuilt`, 667-670.
#guard ((simple 2 1).setPeriodic env (.flag true)).2 = .error .notBuilt

-- `test_remove_periodic`, 673-678.
#guard nbrs (((periodic (built (simple 1 1) [9]) [0]).setPeriodic env (.flag false)).1) [0] =
    [some [1]]

-- `test_minimum_distances_chain`, 681-694.
#guard let L := built (simple 1 1) [4]
    ([0, 1, 2, 3, 4].map fun i => (L.minimumDistances i).toOption) =
      [some [0, 1, 2, 3, 4], some [1, 0, 1, 2, 3], some [2, 1, 0, 1, 2], some [3, 2, 1, 0, 1],
        some [4, 3, 2, 1, 0]] ∧
    ([0, 1, 2, 3, 4].map fun i => ((periodic L [0]).minimumDistances i).toOption) =
      [some [0, 1, 2, 2, 1], some [1, 0, 1, 2, 2], some [2, 1, 0, 1, 2], some [2, 2, 1, 0, 1],
        some [1, 2, 2, 1, 0]]

-- `test_append`, 738-750.
#guard let L := built (simple 2 1) [4, 4]
    nbrs (L.append env L 0 true none false).1 [20, 21, 22, 23, 24] =
      [some [15, 21, 25], some [16, 20, 22, 26], some [17, 21, 23, 27], some [18, 22, 24, 28],
        some [19, 23, 29]]

-- `test_extend`, 753-768.
#guard ((built (simple 1 1) [4]).extend env 2 0 true none false).1.numSites = 8 ∧
    ((built (simple 2 1) [4, 4]).extend env 2 0 true none false).1.shape.map List.ofFn =
      some [7, 4] ∧
    ((built (simple 2 1) [4, 4]).extend env 2 1 true none false).1.shape.map List.ofFn =
      some [4, 7]

-- `test_repeat`, 771-786.
#guard ((built (simple 1 1) [4]).repeat env 1 0 true none false).1.numSites = 10 ∧
    ((built (simple 2 1) [4, 4]).repeat env 1 0 true none false).1.shape.map List.ofFn =
      some [9, 4] ∧
    ((built (simple 2 1) [4, 4]).repeat env 1 1 true none false).1.shape.map List.ofFn =
      some [4, 9]

-- `test_simple_chain`, 861-897.
#guard (built (simple 1 1) [3]).numSites = 4 ∧
    data (built (simple 1 1) [3]) (fun D => D.positions.map List.ofFn) =
      some [[0], [1], [2], [3]] ∧
    nbrs (built (simple 1 1) [3]) [0, 1] = [some [1], some [0, 2]] ∧
    nbrs (periodic (built (simple 1 1) [3]) [0]) [0] = [some [1, 3]] ∧
    nbrs (built (simple 1 2) [6]) [1, 2] = [some [0, 2, 3], some [1, 3, 0, 4]]

-- `test_simple_square`, 900-933.
#guard (built (simple 2 1) [2, 2]).numSites = 9 ∧
    nbrs (built (simple 2 1) [2, 2]) [4] = [some [1, 3, 5, 7]] ∧
    nbrs (periodic (built (simple 2 1) [2, 2]) [0]) [0, 1] = [some [1, 3, 6], some [0, 2, 4, 7]] ∧
    nbrs (periodic (built (simple 2 1) [2, 2]) [1]) [0] = [some [1, 3, 2]] ∧
    level (built (simple 2 2) [2, 2]) 1 [4] = [some [0, 2, 6, 8]]

-- `test_simple_cubic`, 936-984.  The periodic cases `[0, 1]` (`[1, 3, 9, 6, 18]`) and `[1, 2]`
-- (`[1, 3, 9, 2, 6]`) as well as one axis each agree too, but take minutes to evaluate.
#guard let L := built (simple 3 1) [2, 2, 2]
    L.numSites = 27 ∧ nbrs L [0, 13] = [some [1, 3, 9], some [4, 10, 12, 14, 16, 22]]

/-! ## test_data.py -/

-- `test_num_distances`, 49-53.
#guard data (built (simple 1 1) [10]) (·.numDistances) = some 2 ∧
    data (built (simple 2 1) [5, 5]) (·.numDistances) = some 2

-- `test_datamap`, 110-131.
#guard data (built (simple 1 1) [5]) (fun D => (D.map env.argsortNat).1.onsite (some 0)) =
      some [true, false, true, false, false, true, false, false, true, false, false, true, false,
        false, true, false] ∧
    data (built (simple 1 1) [5]) (fun D => (D.map env.argsortNat).1.hopping (some 0)) =
      some [false, true, false, true, true, false, true, true, false, true, true, false, true,
        true, false, true]

-- `test_find_sites`, 198-208.
#guard data (built (simple 2 1) [4, 4]) (·.findSites [some 1, some 1] [some 3, some 3] false) =
      some [6, 7, 8, 11, 12, 13, 16, 17, 18] ∧
    data (built (simple 2 1) [4, 4]) (·.findSites [some 1, some 1] [some 3, some 3] true) =
      some [0, 1, 2, 3, 4, 5, 9, 10, 14, 15, 19, 20, 21, 22, 23, 24]

-- `test_find_outer_sites`, 211-221.
#guard data (built (simple 2 1) [4, 4]) (fun D => (D.findOuterSites 0 1).toOption) =
      some (some [0, 1, 2, 3, 4, 20, 21, 22, 23, 24]) ∧
    data (built (simple 2 1) [4, 4]) (fun D => (D.findOuterSites 1 1).toOption) =
      some (some [0, 4, 5, 9, 10, 14, 15, 19, 20, 24])

end Lattpy.Validation

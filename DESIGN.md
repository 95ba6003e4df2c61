# Formal model of lattpy — design

Source: dylanljones/lattpy at the pinned commit in `/repo` (read only). All line
numbers below refer to that tree. The Lean 4 development lives in `lean/Verif/`
(imported from `lean/Verif.lean`).

## 1. Trusted base

* Lean's kernel, and the statements of the property theorems (files
  `lean/Verif/Props/*.lean`) together with the definitions they mention.
* Axioms: every property theorem depends at most on `propext`,
  `Classical.choice`, `Quot.sound` (checked with `#print axioms`). No axioms of
  our own, no `sorry`, no `native_decide`, no `bv_decide`, no `implemented_by`.
* The transcription of the Python code into Lean (files `lean/Verif/Model/*.lean`).
  Each definition cites the file and lines it mirrors. This step is by hand; it
  is validated by evaluating the model on the expected values of the repository's
  own unit tests (`lean/Verif/Sanity.lean`, and for whole lattices that are built,
  made periodic, appended and repeated `lean/Verif/Validation.lean`; tests, not
  proofs). The helper `assert_elements_equal1d` of test_lattice.py (73-77) only
  asserts the number of elements, so two wrong expected lists (lines 655 and 664)
  pass in the repository; the model computes the lists of the square lattice there.
* External libraries are modelled by their documented contract, not by code:
  * NumPy array primitives (`unique`, `delete`, `isin`, `searchsorted`, `lexsort`,
    `argsort`, `round`, boolean masks, slice assignment with broadcasting).
    Where NumPy leaves an order open (`argsort` is an unstable quicksort) the
    model takes *any* sorting permutation as an argument (an oracle) and theorems
    quantify over all of them.
  * SciPy `cKDTree.query`: any function returning the k nearest points closer than
    the bound, nearest first, padded by index n and infinite distance; ties are
    broken arbitrarily (oracle, quantified over). `query_ball_tree`: all pairs
    within the radius.
  * Qhull (`ConvexHull`): facet inequalities describing the convex hull of the points.
    Qhull (`Voronoi`): points in a hyperplane raise `QhullError`, otherwise the list of
    vertices has exactly the points whose nearest input points do not lie in a hyperplane
    (structure `Qhull`, inhabited by `Qhull.exact`; theorems quantify over all of them).

### What is modelled

* `utils.py`: lookup table, dtype selection, chain, number and time formatting, errors.
* `atom.py`: creation, comparison, item and attribute access, `__repr__` and the shared
  parameter dictionaries. Sessions of atoms are a store (`Session`).
* `spatial.py`: everything but drawing. In two and three dimensions the vertices and
  ridges of a Voronoi diagram come from an oracle with a contract (`Qhull`, `QhullRidges`).
* `basis.py`: all but drawing; Wigner-Seitz cells and Brillouin zones, Fourier phases.
* `shape.py`: regions and limits.
* `structure.py`: configuration, analysis, site generation, neighbour computation,
  base-atom queries, dict round trip, text, hash and equality, the points and lines drawn
  by `plot_cell`.
* `data.py`: everything but sizes in memory, copies and `__str__` (`Data.lean`).
* `lattice.py`: build, periodic boundary conditions, append, queries, maps, text, hash
  and equality, the points, lines and labels drawn by `plot`.
* `__init__.py`: the preset lattices (`Presets.lean`, `PresetLattices.lean`).
* `disptools.py`: path construction, symmetry points, axis scaling, what
  `plot_dispersion`, `plot_dos` and `plot_bands` hand to Matplotlib (`DispPlot.lean`).
* `plotting.py`: colours, the data of lines, circles and labels.

Drawing functions are modelled up to the calls of Matplotlib: the model returns the data
that are passed on, not pixels. One Matplotlib contract is used: an axis that exists is
reused (flag in the model).

### What is not modelled

* Floating point. Scalars are exact elements of an ordered field `K` (with floor),
  instantiated by the reals; so rounding error, NaN and overflow of float64 are
  out of scope. Explicit `np.round(x, 6)` *is* modelled (round half to even).
  `np.unique` of cell distances is exact in the model; in floats two equal distances may
  differ in the last digit.
* Fixed-width integers, except where a property is about them (C13, C19, C20).
  All other integer arrays are unbounded integers. In particular: the `uint8` distance
  table of `append` writing `invalid_idx` of 256 or more, `int8` atom numbers in `map`, a
  too narrow explicit dtype of `build_indices`.
* Matplotlib itself: line widths, zorder, legends, grids, margins, axis-label texts,
  filled areas, pi ticks.
* Logging, pickling to files, `deepcopy`, threads (`num_jobs`).
* Aliasing of NumPy arrays, except where a property mentions it (C53); model
  values are immutable. `check_points(..., relative=True)` with a float array changes the
  array of the caller; a structure restored by `fromdict` shares its atoms with the
  original (C95 has a theorem about this).
* Arguments outside the documented use: negative site numbers in `remove` and
  `minimum_distances`, `remove([])` (`IndexError`), repeated or negative axes in
  `set_periodic`, limits longer than the dimension in `site_mask`, a negative `n_sect` or
  scalar points in `DispersionPath`, ranges of unequal length or another dtype in
  `vrange`, `add_neighbors` with several neighbours.
* The state of a lattice after an exception inside `data.append`.
* One-dimensional answers of `cKDTree.query` for `k=1`.
* The order of the vertices of a ridge in three dimensions and the order of `np.unique` of
  the images in `plot_cell`.

## 2. Layout

* `Verif/Np.lean` – NumPy/SciPy primitives and oracles.
* `Verif/Model/*.lean` – one file per Python module, function by function.
* `Verif/Spec/*.lean` – small specification vocabulary used in statements.
* `Verif/Lemmas/*.lean` – helper lemmas.
* `Verif/Props/*.lean` – property theorems `C??_...`, each followed by an
  `example` instantiating its hypotheses on a concrete non-trivial input.
* `Verif/Sanity.lean`, `Verif/Validation.lean` – evaluation of the model on the
  repository's test values.

Naming: `C12_...` proves the property; `C12_..._partial` proves it under the extra
hypotheses named in the statement; `C12_..._fails` is a proved counterexample
(the code violates the property as stated).

## 3. Plan per property

Representation: a point is `Fin d → K`; a basis is a square matrix whose columns
are the basis vectors (`_vectors`); arrays of rows are lists; exceptions are
values of `Except`. `LatticeData` is a record of parallel tables, exactly the
attributes of the Python class, so that operations forgetting one table show.

| id | what is modelled, how it is proved |
|----|-------------------------------------|
| C01 | `transform`/`itransform` as matrix–vector products with matrix and inverse; linear algebra. |
| C02 | `translate` as `r + V n`; linearity. |
| C03 | `itranslate` with floor; existence from `floor` bounds, uniqueness from uniqueness of integer parts. |
| C04 | the four branches of `cell_volume`; determinant identities, `det (AᵀA) = det A ^ 2`. |
| C05 | `cell_size`; fails for vectors with all-negative components on an axis: counterexample, partial theorem for axes with a non-negative component. |
| C06 | cross products, embedding in 3D, sign fix loop; explicit polynomial identities. |
| C07 | from C06: the dual basis of the dual basis; plus invertibility of the dual. |
| C08 | loop over `zip`; soundness of acceptance fails (off-diagonal not checked): counterexample; partial: true duals are accepted, and diagonal products are what is checked. |
| C09 | mixed-radix fold; induction over the shape. |
| C10 | `get_neighbor_cells` over the box of factors; fails for rectangular cells (level offset by the number of distinct norms): counterexample; partial: returned set is inversion symmetric, equidistant, origin flag respected, and nearest when all basis vectors have equal length and the shortest vectors have that length. |
| C11 | strided assignment loop; index arithmetic. |
| C12 | `np.indices` as lexicographic product; membership, `Nodup`, sortedness. |
| C13 | same with wrap-around arithmetic of the selected type; counterexample at limits (-65,65); partial when the span fits. |
| C14 | sums of squares under `Real.sqrt`; Mathlib's Euclidean norm as specification. |
| C15 | real trigonometry. |
| C16 | real trigonometry on 3×3 matrices; explicit images under `rotate2d`/`rotate3d`; counterexamples: `rot` uses the z-matrix for `thetax`, `rotate2d` turns in the negative sense. |
| C17 | post-processing of the oracle result. |
| C18 | nearest-point oracle; `size` subtracts the wrong axis: counterexample; `limits`, `check` and the one-dimensional vertices proved. |
| C19 | sort-unique plus masked assignment with 8-bit indices; counterexample with 257 values; partial ≤ 256 values. |
| C20 | `np.min_scalar_type` table; minimality fails at -128: counterexample; capacity proved. |
| C21 | list function; induction. |
| C22 | loop over prefixes; induction. The rounding of the format `.{dec}f` is `npRound dec` (half to even); its monotonicity gives the bounds of the printed number. |
| C23 | `args` tuples and unpacking; counterexample for two classes, theorem for the other three. |
| C24 | atoms as records with parameter dictionaries; attribute lookup finds the instance dictionary before the methods. Counterexamples with parameters called `name` and `is_identical`; partial for atoms without them. |
| C25 | association-list dictionary; laws by induction over histories. |
| C26 | global counter as state; freshness invariant; copy fails for an atom with item `name` and for one with a parameter called `copy`: counterexamples. |
| C27, C28 | each shape; linear functions on boxes are bounded by corners; Euclidean balls. |
| C29, C30 | configuration state machine with exceptions; invariants over all histories; counterexample for atomicity of `add_atom` after `analyze`. |
| C31 | lookups in the atom list; counterexample for equal names; partial for distinct names. |
| C32–C34 | base analysis over the searched cells with an arbitrary nearest-neighbour oracle; counterexample for completeness on a skewed cell; partial: complete relative to the searched cells. |
| C35–C37 | functions of the analysis result. |
| C38 | constructor replay; needs pairwise distinct positions (invariant C29). |
| C39 | rounding; counterexample at tiny lattice constants; partial for the chain. |
| C40 | corner estimate, padding, `vindices`; counterexamples (sheared basis, shifted atom, index type, negative basis vector); partial for regions covered by the search window. |
| C41 | alignment of the Fortran-order ravel with `interweave`; filter lemmas. |
| C42 | counterexample at the upper face; partial: exact acceptance region. |
| C43 | evaluation at a=1 and a=1/2 differs: counterexample. |
| C44, C45 | composition of query oracle and filter; sound for all sites, exact when the query is not truncated and for all one-atom lattices with complete analysis; counterexample to exactness and symmetry (truncated query). |
| C46–C58 | `LatticeData` operations on parallel tables; row-wise lemmas, permutation arguments. |
| C59 | composition of C41, C44, C46. |
| C60 | counterexamples (single pass, k = 2; table without padding, k = 1); partial: induced sub-lattice of the full build for padded tables, counts for k ≤ 1. |
| C61 | list searches over any history; counterexamples (unbuilt lattice, sites closer than `atol`). |
| C62 | exact meaning of the level loop; counterexample for two distances and one connection; partial: as many levels as connections (all one-atom cells). |
| C63 | filters of the flattened table; counterexamples for the shape and the `int8` entries of the adjacency matrix. |
| C64 | `Lattice.computePneighbors`, `setPeriodic` (dictionary accumulation as an association list; the four parallel dictionaries are one). `Lemmas/Periodic.lean` computes the links collected for each site; `Props/Periodic.lean` states the properties against `Image` (distance of a shifted site, written out with sums). The chain as a ring in `Props/PeriodicRing.lean`, the counterexample in `Props/PeriodicSmall.lean`, small lattices and full rows in `Props/SmallTorus.lean`. `C64_sound` (`Props/PeriodicSound.lean`): every history and outcome. The shells of long rings in `Props/RingBands.lean`, from the sites reached (C64_ring), the level part of `C64_sound` and the stored distance values. |
| C65 | `periodic_translation_vectors` is modelled with both modes of `_build_periodic_translation_vector`. `PeriodOf` says what one period is (last cell minus first cell plus one). For primitive translations, and for orthogonal lattices in both modes (`C65_modes_agree`), `C65_translations_partial` says exactly what is listed; `C65_planar` derives the full claim for d ≤ 2; `C65_errors` covers no sites and a missing axis. `C65_diagonal_fails` and `C65_oblique_fails` are counterexamples. |
| C66 | `C66_minimum` (least of direct and image distances, bounds, zero on the diagonal), `C66_symmetric`, `C66_defined`, `C66_errors` for all lattices; `C66_ring_partial` gives the ring distance for a positive lattice vector and `C66_chain` runs a chain through `build` and `set_periodic`; `C66_ring_fails` has a negative lattice vector. |
| C67 | The recorded axes over all histories of configuration changes, `build` and `set_periodic` (`C67_history_partial`, induction over the history from the two one-call theorems). `C67_rebuild_fails`: rebuilding keeps the old axes. |
| C77 | `C77_torus_partial`: for d ≤ 2 no whole number of periods gives a smaller distance than the one reported (sites at most one period apart along each periodic axis); `C77_torus_fails`: √5 instead of √2 in three dimensions. |
| C68 | the model of `_append` is followed to the stored links: one theorem for all lattices that says exactly which interface links are stored and at which distance (`C68_interface_partial`), then chains: append, repeat and extend give the neighbours of the chain built directly.  Blocks of whole cells in any dimension (`C68_cells_partial`, `C68_cells_repeat_partial`), and any sequence of appends of such blocks (`C68_joined_partial`, spec `Joined`).  Counterexamples: a shell that no part contains, and repeating on the negative side. |
| C69, C70 | folds over lists; convex combinations; distinct counts; invariant over all histories that data are non-empty and belong to atoms of the cell. |
| C71 | exceptions as values with the state after the exception: counterexample (data reset before the checks); partial: `build` depends on the configuration only, so the earlier call can be repeated. |
| C72 | counterexample (unbuilt lattice); partial: equivalence relation on lattices with atoms and shape, for arbitrary text and digest functions. |
| C73, C74 | `DispPath`: the state of `DispersionPath` (dimension, points, labels, section length) with one function per method; `linspace` and NumPy broadcasting of points of unequal length are written out. Statements over all histories of calls (`C73_points` gives the points and labels themselves, by a separate fold over the calls); counterexample for a point with missing components. |
| C75 | `_scale_xaxis` as the loop over the scales; counterexample when the number of values is not a multiple of the number of sections; partial otherwise, and for every built path. |
| C76 | `connection_color_array` with Python's negative indices; for all lists. |
| C78 | normal form of `KDTree.query` with and without the dropped column; counterexamples with one query point outside the tree and with the default arguments (`k = 1`, which raises). |
| C79 | session invariant (counter, one dictionary per atom) and the shape of the state after `create`. |
| C80 | inner products of the fixed vectors; `Model/Presets.lean`, lines 101-157 of `basis.py`. |
| C81 | both inclusions between the integer combinations and the parity condition on half-integer coordinates. |
| C82 | counterexample at the default values. No docstring says what `az` is; that it is the distance of the layers is read off the name, as for `a1` and `a2`. |
| C83 | `analyze` as a function of the configuration; counterexample between a change of the connections and the next `analyze`. The docstrings ask for that call, so this records a silent state rather than an undocumented one. |
| C84 | All presets of `__init__.py` as sequences of the modelled configuration calls; the exact neighbour sets follow from the analysis and a bound on the searched cells, for lattice constants that the rounding to six decimals resolves. Counterexamples: presets with two kinds of atoms also link atoms of the same kind, since levels are counted per pair; `simple_rectangular` with its default of two levels. `C84_answers` gives the answer of every preset for all constants and numbers of levels including the exceptions; `C84_atoms` and `C84_two_atoms` give the atoms. |
| C85 | The basis of the configured structure is the one it was constructed from. Holds for the presets with orthogonal vectors, fails for the hexagonal ones and NaCl, whose docstrings say the same. |
| C86 | `wigner_seitz_cell` with Qhull as an oracle with contract (`Qhull`: flat points raise, otherwise the Voronoi vertices are returned). Proofs turn closeness into half spaces and show that the shortest lattice vectors imply all other half spaces (cubic, hexagonal, fcc). Counterexamples for bcc and rectangular lattices. |
| C87 | The reciprocal lattice is specified by `G·a_i ∈ 2πℤ`; the dual basis of C06 is unique and generates it, so the zone is the cell of C86 for that basis. Hypercubic, hexagonal, bcc proved; fcc fails. |
| C88 | `fourierWeights` with `k` a number, a vector or rows (Model/Fourier.lean). The weight is related to `IsSitePos` positions of the sites listed by `get_neighbors`; reality uses the symmetry of the neighbour lists (C33), periodicity uses `IsReciprocal`; the closed forms use the neighbour sets of C84. Arrays of wave vectors give one number, numbers are not rejected in more than one dimension: `_fails` |
| C89 | `Model/BaseAtoms.lean` models the loop with the dictionary lookup by hash and equality of atoms (hash function of strings arbitrary) and by name. Proved for all reachable configurations by induction over the loop with the invariant that the dictionary groups the atoms seen so far. Not true for d = 1 with the default arguments and for atoms with a parameter `name` (counterexamples); the partial theorem also excludes a parameter `is_identical`, which hides a method. |
| C90 | `Model/Grid.lean` (`vrange`): sizes by ceiling as in `np.mgrid`, counting on every axis, stable sort by a column. The specification `InSlice` names the numbers without the ceiling. Proved for every dimension. |
| C91 | `Model/Grid.lean` (`npLinspace`, `arange`, `WSCell.meshgrid`), flattened arrays, NaN vectors as `none`. The specification `OnAxis`/`InSlice` describes the values per axis without division or ceiling, `Extent` the limits by least and greatest coordinates. |
| C92 | `LatticeData.getIndexLimits`, `getCellLimits`, `getTranslationLimits`, `getPositions` (Model/Data). Spec `IntBounds` (least and greatest component) and `PositionsOf` (increasing list of the sites of an atom). `C92_limits`, `C92_positions` for all data with as many positions as indices; `C92_build` combines them with the site positions of any build. |
| C93 | `Lattice.computeConnections` over the k-d tree oracle (`connectionNeighbors`). Spec `PairsWithin`: every pair within a radius once, with its distance. `C93_pairs_partial` proves it with the radius of the query, `C93_swap` and `C93_no_data` the exchange and the error, `C93_distances_fails` that the pairs are not restricted to configured distances. |
| C94 | `frmtTime` returns the form and the printed numbers (`TimeText`), a number printed with n decimals being `npRound n`. Spec `TimeText.seconds` (what a reader takes from the text) and `TimeText.InRange`. `C94_long`, `C94_short`, `C94_range_partial` for all times, `C94_range_fails` and `C94_short_range_fails` for the carries. |
| C95 | `Twins` keeps the structure, the restored one and whether they share the array `_connections`. `C95_original_partial` and `C95_no_connections_partial` for all histories on the copy, `C95_connections` (the connections of both stay equal), `C95_shared_fails` for `add_connections(2)` on a restored chain. |
| C96 | Spec `finiteDistances`: the set of finite entries of the distance table. `C96_num_distances_partial` for all tables, `C96_padding_fails` for a chain built from a reachable structure. |
| C97 | Contract `QhullRidges` for the ridges of Qhull beside `Qhull` for the vertices; `QhullRidges.exact` meets it. Spec: `ridge` (points at the same distance from two points and no closer to a third), `OnBoundary`, `OnOriginBoundary`, `IsFaceCenters`, Mathlib's `segment`. `C97_boundary`, `C97_origin`, `C97_planar`, `C97_dim` for all points, `C97_square_partial`, `C97_cube_partial` for all lattice constants from 1e-7 on, `C97_edges_fails`. A bounded ridge in the plane is shown to be a segment with exactly two Voronoi vertices (`planar_ridge`). |
| C98 | Spec: `TorusStep` (one step, around the periodic axes), `WrapStep` (with translation), `GridOf`. `C98_grid` for all sizes, `C98_torus_partial` for a list of axes, `C98_all_axes_partial` for `periodic=True`, with at least three cells along the periodic axes. `Props/SmallTorus.lean`: neighbour sets for two or more cells, the wrong translation on a 2 × 3 torus, the `ValueError` with one cell along a periodic axis. The theorems start at the call of `finite_hypercubic` and go through `add_atom`, `add_connections`, `build` and `set_periodic`. |
| C99 | `LatticeData.Sound` (Spec/Sound.lean) says what consistent tables are. Proved by induction over the history: the KD-tree table and the dangling filter give fitting tables (Lemmas/Sound.lean), `set`, `remove_periodic` and `set_periodic` keep them (Lemmas/SoundData.lean), `append` with its relabelling, padding, sorting and added pairs keeps them (Lemmas/SoundAppend.lean). With `append` the stronger invariant `finite distance means existing site` is needed; `remove_periodic` keeps it only if the infinite distance is stored, hence the condition `Padded` in `Lattice.Used`. `repeat` reads the neighbour array of the data it is changing: the model passes the table along and clears its periodic neighbours after the first repetition (`clearedNeighbors`), as `remove_periodic` does in place, hence the condition `Free` for more than one repetition. |
| C100 | Model/Plot.lean lists the artists `plot` creates (circles, line segments, labels) with their colours. `Segments` states the lines by counting: every listed regular neighbour with a larger number once, every listed periodic neighbour once; `IsBond` and `IsStub` say where a line runs. Proved from `LatticeData.Sound`, which C99 gives for all histories; the grids come from C98. |
| C101 | `IsEdge` (Props/UnitCellPlot.lean) describes the edges by a set of vectors and one vector outside it; the permutations of itertools are modelled as lists and their members characterised. |
| C102 | `plotCell` (Model/Plot.lean) returns the artists as data. The drawn connections are given by a duplicate-free list that is characterised through `get_neighbors`, the lines and images through `IsSitePos` positions. Counterexample: `num_distances` is the largest entry of the connection matrix, an atom with neighbours of two kinds can have more distances. |
| C103 | `C103_access_partial` from C44/C59 and the level partition C47; the smallest stored distance is shown to belong to a link. `C103_no_neighbors_fails` holds for every lattice without neighbours: all stored distances are infinite, so that the invalid level is level 0. |
| C104 | `Session.dict` updates the two slots with the parameters one by one; lookup and keys of an updated dictionary by induction. `C104_slots` by induction over the later steps of the session. Partial: a parameter called `dict` hides the method (`C104_method_fails`). |
| C105 | Model/DispPlot.lean lists the lines, boxes, ticks and labels. `Asked` states the colour of a band, `Drawn` the artists, without the colour lists of the code; the axis comes from C75. Whether `Axes.grid` knows the keyword `b` is a parameter. |
| C106 | Model/DispPlot.lean; the loop over the densities of states by `mapM`, colours through `Asked` as in C105. |
| C107 | `plotBands` (Model/DispPlot.lean) returns the lines or the table of colours; the errors of Matplotlib for tables that do not fit are modelled. |
| C108 | Composition of C84 (the neighbour sets of the presets), the search window of C41 (the origin is found) and the neighbour table of C59 through the spec `NearestOnly` (links at one distance, all other sites farther by a factor of at least the square root of two). |
| C109 | Model/Text.lean: Atom.__repr__, LatticeStructure.dumps/__hash__/__eq__; str of arrays and numbers and md5 are parameters (TextEnv).  The lines of dumps() are read back by cutting at separators (Lemmas/TextLines).  Two structures are equal iff the printed parts agree; C109_atoms: equal lattices have atoms with the same creation numbers.  The literal claim fails: C109_fresh_fails, C109_periodic_fails, C109_sites_fails. |
| C110 | `Model/Hamiltonian.lean`: `zeros`, boolean mask assignment (IndexError for wrong length), `fill` as a sequence of assignments, shape and entries of `build_csr`, blocks of `build_bsr`, `Lattice.dmap`. `C110_lengths`: lengths accepted by the masks. `C110_entries_partial` from C55/C56 (which now only need `Usable` tables); the invariant `Fresh` (no level above the invalid one, no cached map) is carried through `build` and `set_periodic` in `Lemmas/MapReady.lean`. Presets via `NearestOnly` of C108. `C110_joined_partial` (Props/HamiltonianJoined.lean) carries it through `append`, `extend` and `repeat` (Lemmas/JoinReady.lean). Not proved for cached maps (C57). |
| C111 | `Props/Torus.lean`, `Props/TorusPresets.lean`: spec `IsTorus` (neighbours are exactly the sites with a shifted image at the nearest distance, each listed once), `WholeCells`, `Coordination`. `C111_torus_partial` for every structure with nearest connections at most one cell away; `C111_joined_partial`, `C111_repeat_partial` (`Props/AppendTorus.lean`) for lattices joined from blocks by `append` and `repeat`; `C111_hexagonal_partial`, `C111_honeycomb_partial` run configure, build and set_periodic of the presets. Partial because at least three cells are required along each periodic axis and because integer sizes of a honeycomb box do not enclose whole cells (`C111_honeycomb_fails`, `Props/TorusLimits.lean`) |
| C112 | `Model/ShapePlot.lean` models the vertex, edge and surface tables and the circle patches; `Props/ShapePlot.lean` defines boundary points through `contains` alone and shows by linear algebra in the coordinates of the box that the lines cover the boundary. Counterexamples for `Donut.plot` away from the origin and for boxes in one dimension. |
| C113 | `Model/Interpolate.lean` with SciPy's `griddata` as an oracle that makes a partial function from points and values. `Props/Interpolate.lean` states even spacing by an equation (`Spaced`) and the extent of the points by bounds that are attained (`AxisExtent`). One grid line is a counterexample. |
| C114 | `Model/Arguments.lean` adds the content of the argument as state to `check_points` and `build_indices`. Proved for everything but arrays of floats with `relative`/`primitive`; there it fails (structure.py 966 is an addition in place), with the unit chain as witness. |
| C115 | deep copy of the atom objects with the memo, new dictionary addresses, counter untouched; invariant over the memo gives the correspondence of the atoms; pair of lattices in one session, induction over histories with the invariant that their atoms own different dictionaries. Behaviour (Props/CopyAlike.lean): every step of the model uses the atoms only through their number, names and parameters, so two lattices that differ only in the atom objects (and share dictionaries in the same way) still do after any step. |
| C116 | spec `Means`, `Connect.Joins`: which atoms a reference means and which pairs a call joins. Induction over the list of calls gives the rule of the last call; two lists asking for the same connections then agree entry by entry, and `analyze` depends on the configuration only (C83). Counterexample: `add_atom` after `add_connection`. |
| C117 | spec `AgreeOnCommonSites` compares the answers of `neighbors` of both lattices for sites at the same positions. Both builds have the neighbours given by the structure (C59, C108), which depend on the positions and atoms of the two sites only. Counterexample: chain with atoms at 0 and 3, two cells with and without the last site. |
| C118 | Props/Translate.lean. `Moved` says that one region is the other one moved (proved for boxes, size arguments and circles); `searched_sites` describes the sites of a region in their order; the two ordered lists are compared. The neighbours are compared through C59, both builds of the hypercubic and hexagonal presets are shown to succeed. |
| C119 | Props/Rescale.lean. The spec `Scaled` relates basis and positions of two structures, `ScaledLattice` compares the built lattices. Sites by `searched_sites` of both structures and uniqueness of the ordered list, neighbours by the exact description of nearest neighbours (C108). Only boxes and structures whose connections are those between nearest sites are covered; the presets discharge all hypotheses. |
| C120 | Props/Restrict.lean. `PartOfStructure` compares `Lattice.neighbors` with `Structure.getNeighbors`, `BulkCount` compares the numbers. The query of the structure is evaluated from the listed neighbours (C84), the finite side from the exact description of nearest neighbours (C59, C108). Props/RestrictShells.lean: chains with several shells (`PartOfShells`, `LevelsAgree`), where the keys of the neighbour dictionary are computed as 1 … nb. Not covered: several shells in higher dimensions, `min_neighbors`, periodic axes. |
| C121 | Props/PeriodicChange.lean. Invariant RegularFirst: in each row the regular neighbours come first and the rest is periodic or empty. build without min_neighbors establishes it, set_periodic keeps it (it writes behind the regular neighbours), and remove_periodic maps all such tables over the same sites to the same table. As set_periodic begins with remove_periodic, its outcome depends on that table only. The counterexample with min_neighbors is evaluated over the rationals by the kernel (decide +kernel). |
| C122 | Props/BuildAgain.lean. Both calls are followed through the branches of build; set_periodic is shown not to read the recorded axes; the axes themselves come from C67_build_partial. The counterexample is a run over the rationals. |
| C123 | Props/Snapshot.lean. `SameReport` lists the accessors. Configuration calls keep the data, the basis and the kind of axes and only add atoms at the end (`Lattice.run_conf`); the atom numbers of the sites are in range after every history (`Lattice.run_built`). The counterexamples are runs over the rationals. |
| C124 | Props/TorusSymmetry.lean. `MovedSite` (same atom, cell moved by `s` up to whole periods) and `Homogeneous` (a permutation of the sites, equal neighbour counts, neighbours to neighbours) are stated on the indices and the answers of `neighbors`. Proved from C111: an image at distance `r` of a pair is one of the moved pair, the moved site exists by reduction modulo the size and is unique because the block has each residue once. `homogeneous_of` is the common part; the grid with two or more cells per periodic axis and the ring with several shells use it with the relations of C98 and C64. Partial: several shells only for chains. |
| C125 | Props/TorusHamiltonian.lean. `Invariant` compares the entries of the matrix (`csrEntry`, proved equal to `bsrEntry`) for sites related by `MovedSite` of C124 (which exist and are unique by C124). Proved by composing C110 (entries from neighbour lists) with C124; with one shell there is a single level. Partial: two counterexamples evaluated on the model, several shells on a short ring, and a map cached before `set_periodic`. Long rings with several shells in `Props/RingBands.lean`. |
| C126 | fourier_weights as in C88, torus as in C111, matrix as in C60/C125. The neighbours of a site of the torus, moved back by whole periods, are a permutation of the neighbours found by get_neighbors in the infinite lattice (equal number and injective), and a commensurate plane wave does not see the periods. Spec: planeWave, Commensurate, IsPlaneWave (no model helpers). Several shells: long rings in `Props/RingBands.lean`, short rings as counterexample. |
| C127 | neighbours have the other colour: from the neighbour sets of the infinite lattice (C59, C84, C111) and a colouring of its indices; the matrix is the one of C110, its eigenvectors are mapped by the signs of the colours; odd rings by walking around the ring |
| C128 | paths as an inductive relation over `neighbors`; the neighbours are the steps of C98; distance along one axis, also around a periodic one, drops by at most one with a step and by exactly one with a suitable step |
| C129 | row sums of the entries of C110 bound an eigenvector at its largest component; the numbers of entries are the lengths of the lists of `neighbors`; graphene: three neighbours (C111), all on the other atom (C127) |
| C130 | the entries of C110 and of the torus depend on the distance of the two sites only, which is symmetric (a shift `t` one way is `-t` the other way); real energies by the usual argument with the scalar product |
| C131 | Spec: `IsConnected` (walks by `Hops` of C128 through the public `neighbors`), `CellsJoined` (a condition on the neighbour sets of the unit cell only). `connected_of_links` walks inside a cell by induction on the connection of the atoms and from cell to cell by induction on the sum of the differences of the cell coordinates; it only uses that sites at the nearest distance are neighbours, which C59, C111 and C68 provide for built, periodic and joined lattices. |
| C132 | Spec: `Eigenpair` of C129. The matrix entries come from `torus_matrix` (C125), the walks from C131. `edge_unique`: the quotient with the constant vector equals its average over the neighbours, so its real and imaginary part have no maximum inside a connected lattice unless they are constant (`harmonic_const`). |

## 4. Disagreements between code and property

Each line is a theorem proved in Lean with a concrete witness: evaluated on the model, the code does
not do what the property says. The text is the docstring of the theorem.

* `C05_cell_size_fails` (`Props/Spatial.lean`): C05 fails on an axis where all components are negative: for the single vector `-1` the extent of the origin and the vector is 1, the reported size is 0.
* `C08_is_reciprocal_fails` (`Props/Basis.lean`): C08 fails: for the square lattice the vectors `(2π, 5)`, `(0, 2π)` are accepted even with tolerance zero, although `a_2 ⬝ b_1 = 5`.
* `C10_neighbor_cells_fails` (`Props/Basis.lean`): C10 fails for the rectangular lattice with vectors `(2, 0)` and `(0, 1)`: the cells at distance 2 are returned, the nearest cells `(0, ±1)` at distance 1 are not.
* `C13_vindices_default_fails` (`Props/Spatial.lean`): C13 fails with the default type for the limits `(-65, 65)`: the selected 8-bit type overflows, the in-range index 63 is missing and the out-of-range index -193 is listed.
* `C16_rotate2d_sense_fails` (`Props/Rotation.lean`): C16 fails for the sense of rotation: `rotate2d` by 90 degrees takes `(1, 0)` to `(0, -1)`, while the z-rotation matrix takes it to `(0, 1)`.
* `C16_rotate3d_axis_fails` (`Props/Rotation.lean`): C16 fails for the angle about x: a rotation by 90 degrees "about x" moves the point `(1, 0, 0)` of the x axis to `(0, -1, 0)`.
* `C18_size_fails` (`Props/Rotation.lean`): C18 fails for the size: for the square cell with vertices `(±1, ±1)` the reported size is `(0, 0)`, and in one dimension the call always raises.
* `C19_lookup_table_fails` (`Props/Utils.lean`): C19 fails for 257 distinct values with the default 8-bit index type: the last value is looked up as the first.
* `C20_min_dtype_minimal_fails` (`Props/Utils.lean`): C20, minimality fails in signed mode: for `[-128]` the 16-bit type is chosen although `int8` holds the value.
* `C22_printed_fails` (`Props/Utils.lean`): C22 fails for the rounded number: the prefix is chosen before rounding, so that 999.96 is printed as `1000.0` and 1048575 bytes as `1024.0kiB`.
* `C23_error_str_fails` (`Props/Utils.lean`): C23 fails for `SiteOccupiedError` and `NoAtomsError`: `str` raises `ValueError`.
* `C23_hint_fails` (`Props/Utils.lean`): C23: `hint` raises `IndexError` for `SiteOccupiedError` and `NoAtomsError`, which pass no hint.
* `C24_atom_equality_fails` (`Props/Atom.lean`): C24 fails with a parameter called `name`: after `b["name"] = "A"` the atoms `A` and `B` satisfy `a == b` but not `b == a`, nor `b == b`, and their hashes differ for every hash function distinguishing the two names.
* `C24_method_fails` (`Props/Atom.lean`): C24 fails with a parameter called `is_identical`: it hides the method that compares the names (atom.py 146), so comparing the atom with any atom, also with itself, raises `TypeError`.
* `C25_attribute_fails` (`Props/Atom.lean`): C25 fails for keys starting with an underscore: `a["_x"] = 1` is not visible as attribute.
* `C26_copy_fails` (`Props/Atom.lean`): C26 fails: an atom with a parameter called `name`, or `copy`, cannot be copied (`TypeError`), and the copy of an atom whose `radius` was deleted has the radius 0.2 again.
* `C26_lattice_copy_fails` (`Props/Copy.lean`): The index numbers of C26 are no longer unique once a lattice has been copied: `Lattice.copy()` makes atoms that are different objects with dictionaries of their own, but have the index numbers of the atoms they were copied from, whereas `Atom.copy()` takes a new number.
* `C29_add_atom_after_analyze_fails` (`Props/Structure.lean`): C29 fails: after a successful `analyze` every `add_atom` with a free position raises an `AttributeError` *after* the atom has been appended, so that there is one atom more than positions and than `num_base`. (`analyze` replaces the list of positions by an array, which has no method `append`; structure.py 253-254, 454.)
* `C31_same_name_fails` (`Props/Structure.lean`): C31 fails: with two atoms of the same name in the cell, `get_alpha` of the second atom object returns the number of the first (`list.index` compares with `==`, which compares names), and `add_connection(second, second)` connects the first one.
* `C32_num_neighbors_fails` (`Props/Analysis.lean`): C32 fails for `num_neighbors`: the numbers are stored as 8-bit integers (structure.py 600). In a chain with 64 connected shells each atom has 128 neighbours, reported as -128.
* `C34_window_fails` (`Props/Complete.lean`): Rectangular lattice with lattice constants 1 and 10 and atoms at (0,0) and (1/2,5), all connected to one shell: of the four sites of the second atom nearest to the first one (all at distance √25.25), `(0,0)` is listed as a neighbour, but `(-1,-1)` is not, since the searched cells reach only up to distance 10.
* `C36_include_zero_fails` (`Props/StructureQuery.lean`): C36 fails: with `include_zero` the first vector is minus the position of the atom instead of the zero vector, because the zero is inserted before the position is subtracted (structure.py 848-853): for the chain with its atom at 1/2 it is -1/2.
* `C39_small_fails` (`Props/Complete.lean`): A chain with lattice constant `1e-7` and nearest neighbours: `analyze` succeeds and finds no neighbours at all, since all distances are rounded to 0.
* `C40_index_type_fails` (`Props/Build.lean`): C40 fails for large boxes around the origin: the index limits (-101, 101) of the chain with lattice constant 1 in the box [-100,100] fit into `int8`, but the numbers of the 202 cells do not: the site at 50 is missing.
* `C40_negative_fails` (`Props/Build.lean`): C40 fails for chains with a negative basis vector: the limits of the search window are in the wrong order, and the build raises `ValueError` for every length of at least 3.
* `C40_shear_fails` (`Props/Build.lean`): C40 fails for sheared bases away from the origin: with the basis vectors (1,0) and (1,1) the box [-10,10]² does not get the site (20,-10) at its corner (10,-10), since only corners with coordinates set to 0 (instead of the lower limits) are considered for the search window.
* `C40_shifted_atom_fails` (`Props/Build.lean`): C40 fails for atoms with negative coordinates: the chain with lattice constant 1 and the atom at -1/2 has a site at 3/2 (cell 2), which is missing in the built chain of length 3/2.
* `C42_int_fails` (`Props/Build.lean`): `check_points(..., relative=True)` raises `TypeError` for every box given by integers.
* `C42_upper_fails` (`Props/Build.lean`): C42 fails at the upper end: for every structure, box and tolerance the point `tol/2` above the upper corner is rejected, although it is within the box extended by `tol` on both sides.
* `C43_constant_fails` (`Props/Build.lean`): C43 fails: the primitive build of the chain with 4 cells has the cells 0..3 for lattice constant 1, only 0 and 1 for lattice constant 1/2, and 0..4 for lattice constant 2.
* `C44_truncated_fails` (`Props/Neighbors.lean`): Rectangular lattice with lattice constants 1 and 10, atom A at (0,0), atom B at (0,5), all connected to their nearest neighbours, so A and B are neighbours at distance 5. Of the nine A-sites at (-4,0) to (4,0) and the B-site at (0,5), the A-site at the origin and the B-site have this distance, but the table does not list B as neighbour of A: the tree query is limited to 8 neighbours, and there are 8 A-sites closer to the origin.
* `C45_asymmetric_fails` (`Props/Neighbors.lean`): The lattice of `C44_truncated_fails`: the B-site lists the A-site at the origin as neighbour at distance 5, but the A-site does not list the B-site: the neighbour relation is not symmetric.
* `C46_no_columns_fails` (`Props/Data.lean`): C46 fails for a table without columns: `set` raises `ValueError`.
* `C46_no_inf_fails` (`Props/Data.lean`): C46 fails for a table without an infinite distance: the invalid level is then the largest valid one and the most distant neighbours are lost (here both of two sites at distance 1).
* `C47_unique_loop_fails` (`Props/Data.lean`): C47 fails for a site that is its own (periodic) neighbour: the link is in the symmetric table but `unique=True` reports it from no end.
* `C48_remove_repeated_fails` (`Props/Data.lean`): C48 fails for a repeated site number, which the deletion accepts: one site is removed but the numbers are lowered twice, so that old site 3 (new 2) becomes a neighbour of new site 0 instead of new site 1 (old 2).
* `C49_change_after_remove_fails` (`Props/Data.lean`): C49 fails: after removing any sites from any lattice, the periodic boundary conditions can neither be removed nor set: both raise `IndexError`.
* `C49_remove_flags_fails` (`Props/Data.lean`): C49 fails: after removing site 1 of a ring of four the flags are those of other sites; the periodic link of the last site is reported as a regular one.
* `C52_gap_fails` (`Props/DataEdit.lean`): C52 fails for a row with a gap: the periodic neighbour overwrites the regular one, and removing it again does not bring the regular neighbour back.
* `C52_overflow_fails` (`Props/DataEdit.lean`): C52 fails for a full row: one periodic neighbour is dropped silently, two raise `ValueError`.
* `C53_append_modifies_argument_fails` (`Props/DataEdit.lean`): C53 fails: the appended data object is modified; the free slots of its neighbour table are overwritten with the invalid index of the joined table.
* `C53_append_no_inf_fails` (`Props/DataEdit.lean`): C53 fails for joined tables without infinite distance: all neighbours at the largest distance are lost.
* `C53_append_periodic_fails` (`Props/DataEdit.lean`): C53 fails for data with periodic neighbours: they stay, now as regular neighbours.
* `C54_full_row_fails` (`Props/DataEdit.lean`): C54 fails for a full row: the new neighbour is dropped without an error.
* `C54_level_fails` (`Props/DataEdit.lean`): C54 fails for a distance that is not stored: a link of length 11/10 is stored at the next larger level (here: the invalid one, so it is lost) and not at the closest one (1).
* `C55_int8_fails` (`Props/DataMap.lean`): C55 fails for unit cells with more than 128 atoms: the atom numbers are stored with 8 bits. In all data, a site with an atom number from 128 to 255 is no site element of the map, but a link of the site to itself of level `255 - alpha`. Hence neither `onsite()` nor `onsite(128)` selects the second site of `pair128`.
* `C57_stale_map_fails` (`Props/DataMap.lean`): C57 fails: after a query of the map, `remove`, `sort`, `set_periodic` and `add_neighbors` leave the old map in place, which differs from the map of the new tables.
* `C59_no_links_fails` (`Props/LatticeDimer.lean`): C59 fails, `build` raises `ValueError`: the same chain with only the sites at 3 and 10, which are within the search radius but not connected.
* `C59_two_atoms_fails` (`Props/LatticeDimer.lean`): C59 fails for the chain with lattice constant 10 and atoms at 0 and 3, nearest connections between all atoms: in the lattice of 2 cells (sites at 0, 3, 10, 13) the sites 0 and 2 should be neighbours (at the configured distance 10) but `neighbors(0)` only is `[1]`.
* `C59_unpadded_fails` (`Props/LatticeBuild.lean`): C59 fails for every built lattice whose table is not padded (no stored distance is infinite): the largest distance then is taken for the invalid one, and every pair of neighbours at this distance is missing.
* `C60_single_pass_fails` (`Props/Dangling.lean`): C60 fails: the chain of 5 sites with nearest neighbours built with `min_neighbors=2` loses its two ends (one pass over the sites of the full lattice), and the new ends have a single neighbour: `neighbors(0)` of the result, with sites at 1, 2, 3, is `[1]`.
* `C60_unpadded_fails` (`Props/Dangling.lean`): C60 fails even for `min_neighbors=1`: of the sites at 0, 1, 3 of the chain with nearest neighbours the isolated last one is removed. The remaining table has no padding, so the distance 1 is taken for the invalid one, and the two remaining sites, at distance 1, have no neighbours.
* `C61_close_sites_fails` (`Props/LatticeIndex.lean`): C61 fails for lattice constants below the default tolerance `atol = 1e-4`: the chain with lattice constant `5e-5` and sites at `-5e-5`, `0` and `5e-5`; site 1 is at 0, but looking up the position 0 gives site 0.
* `C61_unbuilt_fails` (`Props/LatticeIndex.lean`): C61 fails for a lattice that has not been built: in one dimension `superindex_from_pos` answers site 0 for every position.
* `C62_two_distances_fails` (`Props/CheckNeighbors.lean`): C62 fails for the chain with lattice constant 10 and atoms at 0 and 3, nearest connections between all atoms, with sites at 0, 3, 10, 13 and 20: `check_neighbors(0, 2)` is `None` although 2 is a neighbour of 0 (at level 1): the largest number of connections is 1, but there are 2 distances.
* `C63_int8_fails` (`Props/Graph.lean`): C63 fails: the entries are stored as `int8`. In the chain of 129 sites with 128 neighbour shells site 128 is a neighbour of site 0 at level 127, but the entry at `(0, 128)` is -128.
* `C63_no_neighbors_fails` (`Props/Graph.lean`): C63 fails: for the chain with sites at 0 and 2 (nearest neighbours) `adjacency_matrix` raises `ValueError`, since no site has a neighbour.
* `C63_shape_fails` (`Props/Graph.lean`): C63 fails: the adjacency matrix of the chain with sites at 0, 1 and 3 (nearest neighbours) is `2 × 2` although the lattice has 3 sites: SciPy takes the size from the largest index, and the last site has no neighbour.
* `C64_level_fails` (`Props/LatticeRuns.lean`): C64 fails for lattices shorter than twice the range of the neighbours: on the ring of five sites with three neighbour shells the sites 0 and 3 are at the distance 2 from each other, as `minimum_distances` says, but site 3 stays the third neighbour that it is in the open chain, and is not among the second neighbours of site 0.
* `C64_min_neighbors_fails` (`Props/LatticeRuns.lean`): C60 and C64 fail together: the 5 × 5 square lattice built with `min_neighbors=3` loses its four corners, and `set_periodic([0, 1])` succeeds. The removed corners left gaps in the rows of their neighbours, and the periodic neighbours are written over regular ones: site 4, at (1, 1), has the neighbour 0, at (0, 1), but site 0 has no longer the neighbour 4.
* `C64_overflow_fails` (`Props/LatticeRuns.lean`): C64 fails, `set_periodic` raises `ValueError`: three whole cells of two atoms with three neighbour shells. Site 0 needs six slots (the image of site 0 itself is among the neighbours found), but the table has five, the largest number of neighbours of a site of the open lattice.
* `C64_small_fails` (`Props/PeriodicSmall.lean`): C64 does not hold for small lattices: a chain of two sites with two neighbour shells. Site 1 is already a regular neighbour of site 0; lattice.py 626-628 remove it from the list of periodic neighbours found, but not from the parallel lists of distances and translations, which are read with the positions of the shortened list (lines 632-636). Site 0 becomes its own periodic neighbour at distance 1, the distance of the removed entry; its image is at distance 2. (And only one of the two translations is kept.)
* `C65_diagonal_fails` (`Props/PeriodicVectors.lean`): In three dimensions the translations miss a diagonal. `nvec2[1:] *= -1` (lattice.py 543-545) is meant to turn the sum of two periods into their difference, but for the axes 1 and 2 it changes both signs. Here the cells are 0 to 2 in every direction and all three axes are periodic: the difference of the periods along y and z, `(0, 3, -3)`, is not listed with either sign, while the sum is listed with both.
* `C65_oblique_fails` (`Props/PeriodicVectors.lean`): For oblique lattices and Cartesian axes (the default) the listed translations are not the combinations of the periods. The lattice vectors are (1, 0) and (1/2, 1) and the sites are the cells (0, 0) to (0, 4). One period along x alone is (3, 0) in units of the lattice vectors and one along y alone is (-2, 5). Rounding is done after adding, so their sum (1, 5) is not listed with either sign; and changing the sign of the second lattice coordinate (lattice.py 544) turns (-2, 5) into (-2, -5), which is no combination of the two periods with factors 0, 1 and -1 at all.
* `C66_ring_fails` (`Props/MinDistances.lean`): In one dimension the claim fails when the lattice vector points in the negative direction and Cartesian axes are used. The cell size is then computed as 0 (`cell_size` gives the largest minus the smallest coordinate and only a positive minimum is replaced by 0), so the period is one cell too short. Here the lattice vector is -1 and the sites are at 2, 1 and 0: the minimum distance between the first and the last site comes out as 0, while on the ring of three sites it is 1.
* `C67_rebuild_fails` (`Props/PeriodicAxes.lean`): Rebuilding leaves the recorded axes behind. A chain of six sites is built, made periodic and built again without periodic boundaries. No neighbour is periodic any more and the ends of the chain have one neighbour each, but `periodic_axes` still is `[0]`, and so `minimum_distances` says that the two ends of the open chain are at the distance 1.
* `C67_unrecorded_fails` (`Props/LatticeRuns.lean`): C67 and C66 fail when all periodic neighbours are regular neighbours already: the chain of three sites ("at least three atoms big", lattice.py 670) with two neighbour shells. `set_periodic(0)` succeeds but does not record the axis (lattice.py 698-699), so that `minimum_distances` says that the ends of the ring are at the distance 2.
* `C68_full_row_fails` (`Props/LatticeRuns.lean`): C68 fails if the parts have no site with all its neighbours: two chains of four sites with two neighbour shells. The rows of the joined table are as wide as those of the parts, with three slots, and `add_neighbors` drops what does not fit without an error (see `C54_full_row_fails`). Site 3 lists site 4, but site 4 does not list site 3; in the chain of eight sites built directly both have four neighbours.
* `C68_left_twice_fails` (`Props/LatticeRuns.lean`): C68 fails for a second `append` on the negative side: the translation is that of the appended lattice (lattice.py 813-816) and not the extent of the lattice reached so far, so that the sites of the second piece lie on those of the first.
* `C68_lost_link_fails` (`Props/AppendFails.lean`): C68 fails: two chains of two sites with two neighbour shells. The distance `2` occurs in neither of them, so after `append` the sites `0` and `2` are not neighbours; they are in the chain of four sites built directly.
* `C68_repeat_left_fails` (`Props/AppendFails.lean`): C68 fails: `repeat` on the negative side shifts all copies by the same vector, so the second copy lies on the first.
* `C68_rounded_fails` (`Props/AppendPresets.lean`): C68 fails for distances that are rounded down to six decimals when they are stored, such as `4 / 3`: `_append` looks up the exact distances of the pairs across the interface (lattice.py 827-832) among the stored ones, finds only infinity, and makes no link. A sheet of graphene appended to itself falls into two parts: sites of the two parts at the distance `a` are no neighbours. All calls succeed.
* `C68_spurious_fails` (`Props/LatticeRuns.lean`): C68 fails for more than one atom: across the interface all pairs within the largest distance are linked, connected or not (lattice.py 703-726), and the next larger stored distance is taken. Atoms at 0 and 1/3 with one neighbour shell: the connections have the lengths 1/3 and 1. Three cells appended to three cells: site 5 at 7/3 lists site 6 at 3, at the level of the distance 1 (the distance is 2/3, and built directly these two are no neighbours). The wrong link fills the row, so that the link of the sites 5 and 7, at the distance 1, is missing from the list of site 5.
* `C71_lost_sites_fails` (`Props/LatticeState.lean`): Building a lattice, removing its connections and building it again raises, and the sites and neighbours of the first build are lost: there are no sites any more and `neighbors` raises. The data are reset before the checks (lattice.py 448).
* `C72_unbuilt_fails` (`Props/LatticeState.lean`): A configured lattice that has not been built cannot be compared, not even with itself, and has no hash: `TypeError`, because its shape is `None` (lattice.py 1120). The same holds for a lattice without atoms.
* `C73_short_point_fails` (`Props/Disptools.lean`): C73 fails for a point with missing components: `add` does not check them and NumPy broadcasts a single number. The path from `[1, 1]` to the point `[2]` ends at `[2, 2]`.
* `C74_short_point_fails` (`Props/Disptools.lean`): C74 fails for a point with missing components: NumPy broadcasts a single number. The first row of the path from the point `[2]` to `[1, 1]` is `[2, 2]`.
* `C75_length_fails` (`Props/Disptools.lean`): C75 fails when the number of values is not a multiple of the number of sections: `sect_size` is a fraction and `np.arange` rounds it up. Three points and five values give an axis of six values.
* `C77_torus_fails` (`Props/MinDistances.lean`): In three dimensions the distance on the torus is not found, because a diagonal translation is missing (see `C65_diagonal_fails`). A cubic lattice with spacing 1 has sites in a 3 × 3 × 3 box and all axes are periodic. The sites (0, 0, 2) and (0, 2, 0) are neighbours across an edge of the box, at the distance √2: shifting the first one by (0, 3, -3) gives (0, 3, -1). `minimum_distances` reports √5.
* `C78_default_fails` (`Props/Spatial.lean`): C78 fails for a tree with the default parameter `k=1`: the library returns one-dimensional arrays of distances then, and the test for zero distances (`dists[:, 0]`, spatial.py 347) raises `IndexError`, whatever the points; only `include_zero=True` avoids it.
* `C78_zero_kept_fails` (`Props/Spatial.lean`): C78 fails when a query point is not in the tree: `include_zero=False` removes the first column only if *all* its distances are zero (spatial.py 347). The tree over 0 and 1, queried with 0 and 1/2, lists the point 0 as a neighbour of itself.
* `C82_layers_fails` (`Props/Presets.lean`): C82 fails for the default `a = 1`: the prefactor `a / 2` of the in-plane vectors multiplies `az` as well (basis.py 131-133), so that the layers of `hexagonal3d(a=1, az=1)` are 1/2 apart.
* `C83_stale_fails` (`Props/Stale.lean`): C83 fails with `analyze=False` (the default of `add_connection`) until `analyze` is called; the docstrings ask for that call, but nothing raises without it. A chain analysed with one distance and then given two distances reports two configured distances, while its neighbours are still those of one distance. Only a later `analyze` lists the cell two steps away.
* `C84_rectangular_fails` (`Props/PresetPairs.lean`): C84 fails for the default `neighbors=2` of `simple_rectangular`, documented as "nearest neighbors (2)": with the constants 3 and 1 the two levels are both taken along the shorter direction, so that an atom is linked to its second-nearest atoms at the distance 2, and to none along the other direction.
* `C84_two_atoms_fails` (`Props/PresetPairs.lean`): C84 fails for the presets with two atoms: with `neighbors=1`, documented as "only nearest neighbors", `alternating_chain()` and `nacl_structure()` link every atom also to atoms farther away than its nearest neighbours, namely to those of its own kind, since distances are counted for each pair of atoms of the unit cell separately.
* `C85_oblique_fails` (`Props/PresetConst.lean`): C85 fails for the other presets, whose docstrings also call `a` the length of the basis vectors: `simple_hexagonal(a=1)`, `honeycomb(a=1)` and `graphene(a=1)` return lattices with vectors of length `√3` (`a` is the length of the bonds of the honeycomb), and `nacl_structure(a=1)` one with vectors of length `1/√2` (`a` is the edge of the cubic cell).
* `C86_cell_fails` (`Props/WignerSeitz3.lean`): C86 fails for the body-centred cubic lattice with `a = 1`: the point `(3/5, 0, 0)` is accepted though the lattice point `(1, 0, 0)` is closer to it than the origin. (Only the eight nearest lattice points are used; the cell is cut off by the next six as well.)
* `C86_rectangular_fails` (`Props/WignerSeitz3.lean`): C86 fails for the rectangular lattice with the default lattice constants `1.5` and `1`: the vectors have two different lengths, the second shortest distance is compared, only points on the first axis are used, and the call raises.
* `C87_zone_fails` (`Props/BrillouinZone.lean`): C87 fails for the face-centred cubic lattice with `a = 1`: the wave vector `2π (6/5, 0, 0)` is accepted though the reciprocal lattice vector `2π (2, 0, 0)` is closer to it than zero.
* `C88_array_fails` (`Props/FourierPresets.lean`): C88 fails for several wave vectors at once, although `k` is array-like and the result is declared an array: `np.sum` adds up the whole array, so the answer for the two wave vectors `(0, 0)` and `(π, π)` of the square lattice is the single number 0 instead of the two weights 4 and -4.
* `C88_scalar_fails` (`Props/FourierPresets.lean`): C88 fails for a number as wave vector in more than one dimension: `np.inner` multiplies every component, so the answer for `k = 0` on the square lattice is 8, twice the number of neighbours, instead of a `ValueError` or the weight 4.
* `C89_name_parameter_fails` (`Props/BaseAtoms.lean`): C89 fails if an atom has a parameter called `name`: the membership test of line 911 uses the attribute `atom.name`, which answers with the parameter, the access of line 912 uses the name the atom was created with. With the atoms `A` and `B` and `B["name"] = "A"` the call raises a `KeyError`.
* `C89_one_dimension_fails` (`Props/BaseAtoms.lean`): C89 fails in one dimension with the default arguments: `np.array([pos, 0])` is ragged because `pos` is already an array (structure.py 908-909). NumPy 1.24 and later raise a `ValueError` for every lattice with at least one atom; with older versions no entry is a vector of two numbers.
* `C93_distances_fails` (`Props/Connections.lean`): C93 fails: `compute_connections` does not compare the distances with the configured ones. Of two chains with nearest neighbours only, the second one with every second site, the sites of the cell 0 are reported as connected although their distance 0 is not configured.
* `C94_range_fails` (`Props/TimeFormat.lean`): C94 fails: 59.96 seconds are printed as `60.0s`, 3599.96 seconds as `59:60.0min` and 0.99996 seconds as `1000.0ms`, because the unit is chosen before rounding.
* `C94_short_range_fails` (`Props/TimeFormat.lean`): C94 fails for the short form: one hour is printed as `60:00`, while 61 minutes are printed with hours (`01:01h`), because the minutes are compared with `> 60`.
* `C95_original_fails` (`Props/Restore.lean`): C95 fails for calls on the original as well: a chain linked to its nearest neighbours is restored from its dictionary, and `add_connections(2)` is called on the original. Then the restored lattice reports two levels of neighbours as configured, although its neighbours have not been computed again.
* `C95_shared_fails` (`Props/Restore.lean`): C95 fails: a chain linked to its nearest neighbours is restored from its dictionary, and `add_connections(2)` is called on the restored lattice. Then the original reports two levels of neighbours as configured, although its neighbours have not been computed again.
* `C96_padding_fails` (`Props/NumDistances.lean`): C96 fails for a built chain of four sites: it has one distance between neighbours and `num_distances` is two, because the number that marks missing neighbours is counted.
* `C97_edges_fails` (`Props/SymmetryPoints.lean`): C97 fails for the simple cubic lattice: the list of edge centres has repetitions (every edge of the cell belongs to two faces).
* `C98_small_fails` (`Props/SmallTorus.lean`): C98 with two cells along a periodic axis: `finite_hypercubic((2, 3), periodic=True)`. The site in cell (0, 2) becomes a periodic neighbour of the one in cell (0, 0) with the translation (2, 0), by two cells along the *first* axis, instead of (0, 3): the entry for the neighbour across the first axis (which is a regular neighbour too) is removed from the list of neighbours, but not from the lists of translations read in parallel (lattice.py 626-636).
* `C98_thin_fails` (`Props/SmallTorus.lean`): C98, thin: `finite_hypercubic` with a periodic axis of one cell and a periodic axis of three or more cells raises a `ValueError`: each site would be its own neighbour, the table has no column for that.
* `C99_repeat_fails` (`Props/RepeatPeriodic.lean`): C99 fails for `repeat` with more than one repetition of a lattice with periodic neighbours. The neighbour table that `repeat` reads is the array of the data; the first repetition writes the number of sites over its periodic neighbours (`remove_periodic`) and leaves the separate table of distances as it was. The second repetition appends slots with a finite distance that name no site: a square lattice of three by three sites, periodic along the first axis and repeated twice, has 27 sites, and 27 is a neighbour of one of them. All calls succeed.
* `C99_unpadded_fails` (`Props/Sound.lean`): C99 fails for histories with `append` in which `set_periodic` was used on a table without an empty slot: two linked sites (nothing is infinite, so the only distance is taken for the invalid one) are made periodic and free again, which leaves the number of sites as neighbour at a finite distance. Appended to a chain of four sites, the table names site 6 of 6 sites as a neighbour of site 4.
* `C100_small_fails` (`Props/PlotSmall.lean`): C100 with two cells along a periodic axis: the plot of `finite_hypercubic((2, 3), periodic=True)` has a grey line that leaves the corner (0, 0) diagonally, towards (-2, 2), although all links of the lattice run along the axes. The translation stored for the neighbour across the second axis is that of the first axis (C98_small_fails).
* `C102_cell_fails` (`Props/CellPlot.lean`): C102 fails: `plot_cell` tries as many distances for every atom as the largest number of distances configured for a pair (`num_distances`), but an atom with neighbours of two kinds has more. In `alternating_chain(1, neighbors=1)` the neighbours of an atom of its own kind, at the distance 1, are not drawn.
* `C103_far_fails` (`Props/Access.lean`): C103 fails for a site whose neighbours are all farther away than the nearest neighbours of other sites: `neighbors(2)` is `[1]` but `nearest_neighbors(2)` is empty.
* `C103_no_neighbors_fails` (`Props/Access.lean`): C103 fails for a lattice without neighbours: if no site has a neighbour, `nearest_neighbors(i)` is not empty but lists the number of sites, which is not a site.
* `C104_method_fails` (`Props/Atom.lean`): C104 fails if a parameter is called `dict`: it hides the method, and `atom.dict()` raises `TypeError`.
* `C104_name_fails` (`Props/Atom.lean`): C104 fails for the name: a parameter called `name` hides the name.
* `C104_weight_fails` (`Props/Atom.lean`): C104 fails for the weight: two atoms with different weights have the same dictionary apart from their numbers.
* `C105_atom_fails` (`Props/DispPlot.lean`): C105: one atom for all bands raises a `KeyError`, although the atoms of a list are replaced by their colours: an atom is a mapping with a length and is taken for a list of colours.
* `C105_grid_fails` (`Props/DispPlot.lean`): C105: with a release of Matplotlib that has no keyword `b` of `Axes.grid`, no new figure with a grid (the default) can be made.
* `C105_length_fails` (`Props/DispPlot.lean`): C105: if the number of wave vectors is no multiple of the number of sections (and there are some), nothing can be plotted: the axis is longer than the bands and Matplotlib raises a `ValueError`.
* `C105_subplots_fails` (`Props/DispPlot.lean`): C105: the axes made by `path.subplots()` do not fit the plot of a dispersion: their second tick is at `n`, but the second point of the path is drawn at `n - 1` (`n` wave vectors per section).
* `C106_grid_fails` (`Props/DispPlot.lean`): C106: `grid=True` raises a `ValueError` (`plot_dispersion` accepts it).
* `C106_more_fails` (`Props/DispPlot.lean`): C106: more densities of states than bands raise an `IndexError`, also without a list of colours or with one colour for all.
* `C107_label_fails` (`Props/DispPlot.lean`): C107: the colour bar of a single band in two dimensions is labelled with the absolute value, although the energies themselves are shown: the number of bands is read after the array was replaced by the table of the only band.
* `C109_fresh_fails` (`Props/Equality.lean`): Creating the same chain twice in a session and building both with the same arguments gives lattices that are not equal: the text of an atom ends with its creation number (atom.py 155), and the second chain has another atom.
* `C109_periodic_fails` (`Props/Equality.lean`): A built chain and the same chain after `set_periodic` are equal, although the neighbours of a site differ.
* `C109_sites_fails` (`Props/Equality.lean`): Two chains of the same extent are equal, although one of them has a vacancy.
* `C110_negative_fails` (`Props/Hamiltonian.lean`): C110 fails for negative arguments of the masks: `hopping(-1)` selects the elements of the sites of atom 0, and `onsite(-1)` the links of level 0.
* `C110_single_fails` (`Props/Hamiltonian.lean`): C110 fails for a lattice without links: for the chain of a single site the nearest neighbour of site 0 is reported to be site 1, which does not exist, so the loop of README.md raises `IndexError` at `ham[0, 1] = t`.
* `C110_twice_fails` (`Props/Hamiltonian.lean`): C110 fails for small periodic lattices: a chain of two sites with two shells, made periodic. Site 0 is listed as its own nearest neighbour (`C64_small_fails`), so the value of the link is added to the value of the site by `build_csr`, while the loop of README.md overwrites it: with `eps = t = 1` the entry `(0, 0)` is at least 2, the loop gives 1.
* `C111_honeycomb_fails` (`Props/TorusLimits.lean`): C111 fails for honeycomb lattices of integer size: `build((n, n), primitive=True)` keeps the first atom of `n + 1` cells in each direction, but the second atom only of `n` (its position in the last cell is outside of the box). The cells are not whole, the period is `n + 1`, and after `set_periodic([0, 1])`, whatever its outcome, not every site has three neighbours: the first site is left with at most one.
* `C112_donut_fails` (`Props/ShapePlot.lean`): C112 fails for every `Donut` away from the origin: `plot` ignores the position (shape.py 247-248). The donut around (10, 0) with the radii 2 and 1 is drawn around the origin; no drawn point is in the shape or within its limits.
* `C112_line_fails` (`Props/ShapePlot.lean`): C112 fails in one dimension: there are no edges to draw (`_build` returns `None`, shape.py 95), and `plot` raises `ValueError` for every interval.
* `C113_single_fails` (`Props/Interpolate.lean`): C113 fails for a single grid line: with `num = (1, 1)` the grid of the corners of a triangle has only the point at the smallest coordinates and does not reach the largest ones.
* `C114_build_indices_fails` (`Props/Arguments.lean`): C114 fails: `build_indices(shape, primitive=True)` of the unit chain, called twice with the same array `shape = np.array([3.0])`, returns three sites at the first and four at the second call.
* `C114_check_points_fails` (`Props/Arguments.lean`): C114 fails for every structure and every array of floats with `relative=True`: `check_points` adds the relative margin to the array of the caller.
* `C116_atom_fails` (`Props/ConfigOrder.lean`): C116 fails when an atom is added after a connection: `add_atom` resets all connections (structure.py 264). `add_connection(0, 0, 1)` followed by `add_atom` leaves the atom `A` without connections, the same calls in the other order connect it. All calls succeed.
* `C117_two_atoms_fails` (`Props/Overlap.lean`): C117 fails for the chain with lattice constant 10 and atoms at 0 and 3: in the lattice of two cells (sites at 0, 3, 10, 13) the site at 10 is no neighbour of the site at 0, in the same lattice without the last site it is.
* `C118_index_type_fails` (`Props/Translate.lean`): C118 fails for long chains around the origin: the chain with lattice constant 1 in the box [0, 200] has the site at 150, but in the box moved by -100 the site at 50 is missing, since the numbers of the cells do not fit into the index type.
* `C118_tolerance_fails` (`Props/Translate.lean`): C118 fails for boxes that end just before a lattice plane: the square lattice in the box [0, 2.9995] × [0, 1] does not have the site (3, 0), which is within the tolerance of `check_points` but not in the searched window; in the box moved by (-3, 0) the window reaches up to the origin, and the corresponding site (0, 0) is there.
* `C119_tolerance_fails` (`Props/Rescale.lean`): C119 fails for lattice constants below the tolerance 1e-3 of `check_points`: the chain with the constant 1 in the box [0, 1] has no site in the cell -1, the chain with the constant 1e-4 in the box [0, 1e-4] has one.
* `C120_level_fails` (`Props/RestrictShells.lean`): Level numbers: `neighbors(site, distidx)` of a finite lattice counts the distances that occur in the lattice, `get_neighbors(nvec, alpha, distidx)` those of the infinite structure. In the chain with two shells of which only the sites at 0 and 2 are kept, the neighbour at level 0 of the first site is the one at distance 2, which the infinite chain has at level 1 and not at level 0.
* `C120_two_atoms_fails` (`Props/Restrict.lean`): C120 fails for several shells: the chain with lattice constant 10 and atoms at 0 and 3 has the neighbour at 10 of the atom at 0 in the second level of distances, but in the lattice of two cells (sites at 0, 3, 10, 13), which contains this neighbour as site 2, the neighbours of site 0 only are `[1]`.
* `C121_dangling_fails` (`Props/PeriodicChange.lean`): C121 fails with `min_neighbors`: of the chain of seven sites with two neighbour shells `build(6, min_neighbors=3)` keeps the five inner ones. The removed site leaves a gap in the row of the first site, and `set_periodic(0)` writes over the regular neighbour behind it: site 2 has the neighbour 0, but site 0 has no longer the neighbour 2. `set_periodic(False)` does not bring it back. All calls succeed.
* `C122_failed_build_fails` (`Props/BuildAgain.lean`): C122 fails for what an earlier build leaves behind: after a build that raises, the sites are gone but the shape is still that of the lattice built before (and the recorded axes, see `C67_rebuild_fails`); `set_periodic` then raises `IndexError`. The same build on a new lattice leaves no shape, and `set_periodic` raises `NotBuiltError`.
* `C123_check_neighbors_fails` (`Props/Snapshot.lean`): C123 fails for `check_neighbors`, which tries as many levels as are configured at present: the chain of seven sites with two shells. After `add_connections(1)` site 2 is still a neighbour of site 0 at level 1, but `check_neighbors(0, 2)` no longer says so.
* `C123_set_periodic_fails` (`Props/Snapshot.lean`): C123 fails for `set_periodic`, which mixes the sites that were built with the present configuration: the ring of six sites with nearest neighbours. After `add_connections(2)` the lattice still reports the neighbours 1 and 5 of site 0, but setting the same periodic axis again raises `ValueError`: there is no room in the rows for the neighbours of the second shell. The periodic neighbours are lost, while `periodic_axes` still names the axis.
* `C125_shells_fails` (`Props/TorusHamiltonian.lean`): C125 fails for several shells on short rings: five sites with three neighbour shells and periodic boundaries. The pair (0, 3) moved by two cells is the pair (2, 0). Both are second neighbours around the ring, but the first one is stored as third neighbour (`C64_level_fails`), so that the matrix has the values of different shells.
* `C125_stale_fails` (`Props/TorusHamiltonian.lean`): C125 fails if `dmap()` was called before `set_periodic`: the old map is returned again (data.py 619-632, C57), and the matrix is the one of the open chain. The pair (2, 3) moved by one cell is the pair (3, 0), which are neighbours now, but have no entry.
* `C126_shells_fails` (`Props/BlochWaves.lean`): C126 fails for the single shells of short rings: five sites with three neighbour shells and periodic boundaries. The infinite chain has two second neighbours, hence the Fourier weight at `k = 0`, where the plane wave is constant, counts two. The ring stores one second neighbour of the first site (`C64_level_fails`).
* `C127_odd_ring_fails` (`Props/Sublattices.lean`): C127 fails for periodic rings with an odd number of sites: no colouring exists at all. The chain itself has one (`C127_presets_partial`).
* `C128_gap_fails` (`Props/Hops.lean`): C128 fails for other shapes: a chain of five cells built without the middle one (by the `callback`) consists of two parts, no number of hops leads from one to the other.
* `C130_append_fails` (`Props/Hermitian.lean`): C130 fails for lattices joined by `append` with two shells: two chains of four sites. The rows of the table are full (`C68_full_row_fails`): there is an entry from site 3 to site 4, but none from 4 to 3.
* `C131_append_fails` (`Props/Connected.lean`): C131 fails for joined sheets with a distance which is rounded down when it is stored, such as `4 / 3`: the call succeeds, but no number of hops leads from the first sheet to the second.


## 5. Wrong programs tried

`seeded/LOG.jsonl` has one line per wrong program: a definition of the model was edited the way a
realistic bug would change the code, and everything was rebuilt. The outcome says how far the
evidence goes.

* *A property theorem failed*: the build stopped at a theorem named in the manifest.
* *A supporting lemma failed*: the theorems depending on it were not reached. A lemma can also fail
  because its proof script no longer fits although it is still true, so this alone does not show
  that a property excludes the bug. Where the property statement was read again with the edit in
  mind, `note` gives the result.
* *All theorems still proved*: the edit was not noticed. `theorems_tightened` names what was added
  or changed, and `outcome_after_tightening` the result of repeating the edit afterwards.

{"id": "C01", "title": "World and basis coordinates convert back and forth without loss", "statement": "For a lattice whose basis vectors are linearly independent, converting a point to basis coordinates and back (or from basis to world and back) returns the point itself; basis vector i has basis coordinates e_i.", "quantifier": "every dimension, every invertible basis, every point", "why_tests_cant": "A finite test samples a few bases; the claim is about all invertible matrices and all points.", "anchors": ["lattpy/basis.py:LatticeBasis.transform", "lattpy/basis.py:LatticeBasis.itransform", "lattpy/basis.py:LatticeBasis.__init__"]}
{"id": "C02", "title": "Translation by integer vectors is a group action with the documented formula", "statement": "translate(n, r) is r plus the integer combination sum_i n_i a_i of the basis vectors as listed by `vectors`; translating by 0 does nothing and translating by n and then m equals translating by n+m.", "quantifier": "every basis, every pair of integer vectors, every point", "why_tests_cant": "Composition laws range over infinitely many vectors; a transposed matrix passes every test on symmetric bases.", "anchors": ["lattpy/basis.py:LatticeBasis.translate", "lattpy/basis.py:LatticeBasis.vectors"]}
{"id": "C03", "title": "Every point splits uniquely into a cell and a position inside the home cell", "statement": "itranslate(x) returns integers n and a remainder r with x = translate(n, r) and all basis coordinates of r in [0,1). No other pair (n', r') with r' in the home cell satisfies this; hence itranslate(translate(n, r)) = (n, r) exactly when r is in the home cell.", "quantifier": "every invertible basis, every point, including negative coordinates and points exactly on cell borders", "why_tests_cant": "Existence and uniqueness for all reals is not sampled by the handful of integer points in the tests.", "anchors": ["lattpy/basis.py:LatticeBasis.itranslate", "lattpy/basis.py:LatticeBasis.translate"]}
{"id": "C04", "title": "The cell volume is the absolute determinant of the basis", "statement": "The reported cell volume equals |det(vectors)| in every dimension (the code uses four different formulas), is positive for an invertible basis, and does not change when the same lattice is described by another integer (unimodular) basis.", "quantifier": "every dimension >= 1, every basis matrix, every integer matrix of determinant +-1", "why_tests_cant": "Four code branches, infinitely many matrices and dimensions.", "anchors": ["lattpy/spatial.py:cell_volume", "lattpy/basis.py:LatticeBasis.cell_volume"]}
{"id": "C05", "title": "The cell size is the extent of the box spanned by the origin and the basis vectors", "statement": "Along every axis the reported cell size is the difference between the largest and the smallest coordinate among the origin and the basis vectors.", "quantifier": "every set of basis vectors", "why_tests_cant": "Holds for all tested (non-negative) vectors and fails only for sign patterns no test contains.", "anchors": ["lattpy/spatial.py:cell_size", "lattpy/basis.py:LatticeBasis.cell_size"]}
{"id": "C06", "title": "The reciprocal vectors are dual to the basis", "statement": "In 1, 2 and 3 dimensions the returned vectors b_j satisfy a_i . b_j = 2*pi*delta_ij for left- and right-handed bases alike, for every tolerance 0 <= tol < 4*pi (so also when reciprocal_lattice/brillouin_zone forward `min_negative` as tolerance), and check=True never raises.", "quantifier": "every invertible basis of dimension 1, 2, 3; every tolerance in range", "why_tests_cant": "Handedness and sign fix-up interact with arbitrary geometry; tests use seven fixed lattices.", "anchors": ["lattpy/basis.py:LatticeBasis.reciprocal_vectors", "lattpy/basis.py:LatticeBasis.reciprocal_lattice", "lattpy/basis.py:LatticeBasis.vectors3d"]}
{"id": "C07", "title": "Taking the reciprocal lattice twice gives back the lattice", "statement": "The reciprocal vectors of the reciprocal lattice are the original basis vectors, in the original order.", "quantifier": "every invertible basis of dimension 1, 2, 3", "why_tests_cant": "Tested on seven lattices only; the law is over all bases.", "anchors": ["lattpy/basis.py:LatticeBasis.reciprocal_lattice", "lattpy/basis.py:LatticeBasis.reciprocal_vectors"]}
{"id": "C08", "title": "is_reciprocal accepts exactly the dual vectors", "statement": "is_reciprocal(vecs) is True if and only if a_i . b_j equals 2*pi*delta_ij (within the tolerance) for all i and j.", "quantifier": "every basis, every candidate list of vectors", "why_tests_cant": "The tests only scale the correct vectors, so off-diagonal products are never exercised.", "anchors": ["lattpy/basis.py:LatticeBasis.is_reciprocal"]}
{"id": "C09", "title": "Cell indices and super-indices are in bijection", "statement": "For a box of cells of positive shape, get_cell_superindex is a bijection between the cell indices inside the box and 0..prod(shape)-1 with inverse get_cell_index; it is strictly monotone in the lexicographic order of the cells. Converting any integer (also negative or too large) to a cell index and back returns it.", "quantifier": "every dimension, every positive shape, every index", "why_tests_cant": "Mixed-radix arithmetic over unbounded integers.", "anchors": ["lattpy/basis.py:LatticeBasis.get_cell_superindex", "lattpy/basis.py:LatticeBasis.get_cell_index"]}
{"id": "C10", "title": "get_neighbor_cells(0) returns the nearest neighboring cells", "statement": "With default arguments the returned non-zero translation vectors are exactly the shortest non-zero lattice vectors (among the searched factors); the origin is included iff requested, and with n also -n is returned.", "quantifier": "every basis, include_origin on or off, every distance level", "why_tests_cant": "Depends on the number of distinct vector lengths of the basis; wrong for shapes that are not tested (rectangular).", "anchors": ["lattpy/basis.py:LatticeBasis.get_neighbor_cells", "lattpy/basis.py:LatticeBasis.wigner_seitz_cell"]}
{"id": "C11", "title": "interweave alternates its inputs", "statement": "For n arrays of common length m the result has n*m rows and row j*n+i is row j of array i.", "quantifier": "every number of arrays and every length", "why_tests_cant": "Index arithmetic over all sizes.", "anchors": ["lattpy/spatial.py:interweave"]}
{"id": "C12", "title": "vindices enumerates every integer vector of a box exactly once", "statement": "vindices(limits) contains a vector iff low <= component < high on every axis, contains it exactly once, and the rows are in lexicographic order when sorted along axis 0 (for another sort axis: sorted by that component).", "quantifier": "every dimension, every integer limits, every sort axis (index type wide enough)", "why_tests_cant": "Infinitely many boxes; product-order and uniqueness are structural.", "anchors": ["lattpy/spatial.py:vindices"]}
{"id": "C13", "title": "vindices is correct with its default index type", "statement": "The enumeration property of vindices also holds when no dtype is given, i.e. the automatically selected integer type never overflows.", "quantifier": "every limits", "why_tests_cant": "Overflow starts only at boxes wider than 128 cells with a negative side; no test is that large.", "anchors": ["lattpy/spatial.py:vindices", "lattpy/utils.py:min_dtype"]}
{"id": "C14", "title": "distance is the Euclidean metric", "statement": "distance and distances return the Euclidean distance: symmetric, zero exactly for equal points, triangle inequality, invariant under translating both points; rounding moves the result by at most half a unit of the last kept decimal, keeps the order, and sends exact ties to the even digit.", "quantifier": "every dimension, all points, every number of decimals", "why_tests_cant": "Inequalities over all real points.", "anchors": ["lattpy/spatial.py:distance", "lattpy/spatial.py:distances"]}
{"id": "C15", "title": "compute_vectors realises the requested cell parameters", "statement": "In 2D and 3D the returned vectors have the requested lengths and enclose the requested angles (alpha between b and c, beta between a and c, gamma between a and b in 3D) whenever such a cell exists.", "quantifier": "all positive lengths and admissible angles", "why_tests_cant": "Trigonometric identities over a continuous parameter range.", "anchors": ["lattpy/spatial.py:compute_vectors"]}
{"id": "C16", "title": "Rotations rotate about the named axis", "statement": "rx, ry, rz are right-handed rotation matrices (orthogonal, determinant one, additive in the angle, fixing their axis); rotate2d/rotate3d apply them to the point with the angle in degrees or radians, preserve lengths and distances, and rotate3d with only one non-zero angle fixes the axis of that angle.", "quantifier": "all angles, all vectors", "why_tests_cant": "Identities over all angles; rotate3d is excluded from coverage altogether.", "anchors": ["lattpy/spatial.py:rx", "lattpy/spatial.py:ry", "lattpy/spatial.py:rz", "lattpy/spatial.py:rot", "lattpy/spatial.py:rotate2d", "lattpy/spatial.py:rotate3d"]}
{"id": "C17", "title": "Neighbour queries return exactly the points in range, nearest first", "statement": "For a tree over distinct points queried with its own points: each result row contains exactly the other points closer than max_dist (as long as at most k points are in range including the point itself), sorted by distance, without the point itself, padded with the invalid index n and infinite distance; distances are rounded to the requested decimals.", "quantifier": "every point set, k, max_dist, rounding; every tie order of the underlying k-d tree", "why_tests_cant": "Post-processing of an external result over all geometries and all tie orders.", "anchors": ["lattpy/spatial.py:KDTree.query"]}
{"id": "C18", "title": "Wigner-Seitz cells report membership and extent correctly", "statement": "check(p) tells whether p is at least as close to the origin as to every other lattice point used; in one dimension the vertices are the points halfway to the other points; limits are the per-axis extrema of the vertices and size is the extent of the cell along each axis.", "quantifier": "all lattices and query points", "why_tests_cant": "size is never tested; membership is over all points.", "anchors": ["lattpy/spatial.py:WignerSeitzCell.check", "lattpy/spatial.py:WignerSeitzCell.size", "lattpy/spatial.py:WignerSeitzCell.limits"]}
{"id": "C19", "title": "The lookup table loses no information", "statement": "create_lookup_table returns strictly increasing values and an index array with values[indices] equal to the input.", "quantifier": "every array", "why_tests_cant": "Index type has 8 bits; failures need more than 256 distinct values.", "anchors": ["lattpy/utils.py:create_lookup_table"]}
{"id": "C20", "title": "min_dtype selects an integer type that holds all values", "statement": "The chosen type can store every given integer (and, in signed mode, their negatives), and no smaller numpy integer type of the same signedness could.", "quantifier": "all integer arrays within 64-bit range, signed and unsigned mode", "why_tests_cant": "Boundary values of eight types; all arrays.", "anchors": ["lattpy/utils.py:min_dtype"]}
{"id": "C21", "title": "chain lists consecutive pairs", "statement": "chain(items) has len-1 pairs, the i-th being (items[i], items[i+1]); with cycle=True the closing pair (last, first) is added, so every item occurs once as first and once as second element; an empty cyclic chain raises IndexError.", "quantifier": "all sequences", "why_tests_cant": "All lengths.", "anchors": ["lattpy/utils.py:chain"]}
{"id": "C22", "title": "frmt_num scales losslessly to the right prefix", "statement": "The number that is formatted times div^p (p the position of the printed prefix) is the input, and its magnitude is below div; for p > 0 it is at least 1 (up to the largest prefix). The number read in the text, rounded to dec decimals, gives the input up to half of its last digit and has the same bounds.", "quantifier": "all numbers, all div > 0, all numbers of decimals and units", "why_tests_cant": "Loop over prefixes for all magnitudes.", "anchors": ["lattpy/utils.py:frmt_num", "lattpy/utils.py:frmt_bytes"]}
{"id": "C23", "title": "Every error of the library can be displayed", "statement": "str() of each configuration error raised by the library yields its message (with the hint if there is one).", "quantifier": "all configuration error classes", "why_tests_cant": "Tests check that errors are raised, never that they can be printed.", "anchors": ["lattpy/utils.py:ConfigurationError.__str__", "lattpy/utils.py:SiteOccupiedError", "lattpy/utils.py:NoAtomsError", "lattpy/utils.py:NotAnalyzedError", "lattpy/utils.py:NoConnectionsError", "lattpy/utils.py:NotBuiltError"]}
{"id": "C24", "title": "Atom equality is an equivalence compatible with hashing", "statement": "Equality of atoms is reflexive, symmetric and transitive, and equal atoms (also an atom and an equal name string) have equal hashes, so atoms work as dictionary keys.", "quantifier": "all atoms, with all parameter dictionaries reachable through the public mapping interface", "why_tests_cant": "Depends on histories of item assignments (e.g. a parameter called 'name').", "anchors": ["lattpy/atom.py:Atom.__eq__", "lattpy/atom.py:Atom.__hash__", "lattpy/atom.py:Atom.is_identical", "lattpy/atom.py:Atom.__getattribute__"]}
{"id": "C25", "title": "Atom parameters behave like a mutable mapping with attribute access", "statement": "After setting a parameter it reads back via item, attribute and get; other parameters are unaffected; deleting removes exactly that key and reading it raises KeyError / returns the default; len and iteration follow insertion order without duplicates.", "quantifier": "all histories of set/delete operations and all keys", "why_tests_cant": "Law over all operation sequences.", "anchors": ["lattpy/atom.py:Atom.__getitem__", "lattpy/atom.py:Atom.__setitem__", "lattpy/atom.py:Atom.__delitem__", "lattpy/atom.py:Atom.get", "lattpy/atom.py:Atom.__len__", "lattpy/atom.py:Atom.__iter__", "lattpy/atom.py:Atom.__getattribute__", "lattpy/atom.py:Atom.__setattr__"]}
{"id": "C26", "title": "Copying an atom preserves everything except its identity number", "statement": "copy() has the same name, weight and parameters, and a fresh index; all indices handed out in a session are pairwise different; changing the copy does not affect the original. Copying works for every atom.", "quantifier": "all sequences of constructor/copy calls", "why_tests_cant": "Freshness is a property of whole histories.", "anchors": ["lattpy/atom.py:Atom.__init__", "lattpy/atom.py:Atom.copy"]}
{"id": "C27", "title": "Shapes contain only points inside their limits", "statement": "For Shape (with or without basis), Circle, Donut and ConvexHull: a point accepted by contains with tolerance 0 lies within limits() on every axis; so scanning the limits misses no point of the shape.", "quantifier": "all shapes, all points, every dimension", "why_tests_cant": "Convexity argument over all parameters.", "anchors": ["lattpy/shape.py:Shape.contains", "lattpy/shape.py:Shape.limits", "lattpy/shape.py:Circle.contains", "lattpy/shape.py:Circle.limits", "lattpy/shape.py:Donut.contains", "lattpy/shape.py:Donut.limits", "lattpy/shape.py:ConvexHull.contains", "lattpy/shape.py:ConvexHull.limits"]}
{"id": "C28", "title": "contains decides the described region", "statement": "Shape.contains is membership in the box pos + [0,size] in basis coordinates (grown by tol), Circle the closed ball, Donut the closed annulus (a subset of the outer ball); a larger tolerance never excludes a point.", "quantifier": "all shapes, tolerances and points", "why_tests_cant": "Continuous parameter space.", "anchors": ["lattpy/shape.py:Shape.contains", "lattpy/shape.py:Circle.contains", "lattpy/shape.py:Donut.contains"]}
{"id": "C29", "title": "Configuring atoms keeps the unit cell consistent", "statement": "After any sequence of add_atom / add_connection(s) / analyze calls, the number of atoms, of positions and num_base agree and no two atoms of the cell share a position; a call that raises leaves the unit cell unchanged.", "quantifier": "all histories of configuration calls, including rejected ones", "why_tests_cant": "Failure needs a specific order of calls (adding an atom after an analysis).", "anchors": ["lattpy/structure.py:LatticeStructure.add_atom", "lattpy/structure.py:LatticeStructure._compute_base_neighbors", "lattpy/structure.py:LatticeStructure.add_connections"]}
{"id": "C30", "title": "The connection matrix is symmetric and changes only where asked", "statement": "After any history of configuration calls connections[i][j] == connections[j][i]; add_connection(i, j, n) sets exactly the entries (i,j) and (j,i); add_connections sets all; adding an atom resets all connections to 0.", "quantifier": "all histories, all atom pairs", "why_tests_cant": "Invariant over arbitrary call sequences.", "anchors": ["lattpy/structure.py:LatticeStructure.add_connection", "lattpy/structure.py:LatticeStructure.add_connections", "lattpy/structure.py:LatticeStructure.add_atom"]}
{"id": "C31", "title": "Atoms can be addressed by index, name or object", "statement": "get_alpha(name) returns exactly the indices of atoms with that name, get_alpha(atom object) the index of that atom, get_atom inverts indices; so add_connection(atomA, atomB) connects the two given atoms.", "quantifier": "all unit cells, also with several atoms of the same name", "why_tests_cant": "Fails only when two atom objects share a name (the default name).", "anchors": ["lattpy/structure.py:LatticeStructure.get_alpha", "lattpy/structure.py:LatticeStructure.get_atom", "lattpy/structure.py:LatticeStructure.add_connection", "lattpy/atom.py:Atom.__eq__"]}
{"id": "C32", "title": "Reported base neighbours are real lattice sites at the reported distance", "statement": "After analyze, every index listed as neighbour of atom a at distance d addresses an existing atom of the lattice, its position has rounded distance d from atom a, d is positive (so an atom is never its own neighbour), no index is listed twice, and per pair of atoms only as many distance levels occur as its connection allows; num_neighbors counts them.", "quantifier": "all bases, unit cells and connection settings; all tie orders of the neighbour query", "why_tests_cant": "Over all unit cells; tests check a few neighbour counts.", "anchors": ["lattpy/structure.py:LatticeStructure.analyze", "lattpy/structure.py:LatticeStructure._analyze_raw", "lattpy/structure.py:LatticeStructure._compute_base_neighbors"]}
{"id": "C33", "title": "The base neighbour relation is symmetric", "statement": "If cell n, atom b is a neighbour of atom a of the home cell at distance d, then cell -n, atom a is a neighbour of atom b of the home cell at distance d; the distance matrix is symmetric.", "quantifier": "all analyzed unit cells", "why_tests_cant": "Requires inversion symmetry of the searched cells for all bases.", "anchors": ["lattpy/structure.py:LatticeStructure.analyze", "lattpy/structure.py:LatticeStructure._compute_base_neighbors", "lattpy/basis.py:LatticeBasis.get_neighbor_cells"]}
{"id": "C34", "title": "analyze finds all neighbours of the requested shells", "statement": "The neighbours listed for a pair of atoms and the first k distance levels are all lattice sites of that kind at these distances.", "quantifier": "all bases and unit cells", "why_tests_cant": "A finite search window must suffice for every geometry; it does not for strongly anisotropic or skewed cells.", "anchors": ["lattpy/structure.py:LatticeStructure._compute_base_neighbors", "lattpy/basis.py:LatticeBasis.get_neighbor_cells"]}
{"id": "C35", "title": "Neighbour queries are translation covariant", "statement": "get_neighbors(n, alpha, d) is get_neighbors(0, alpha, d) shifted by n, and get_neighbor_positions lists the positions of exactly these sites, all at the d-th distance from site (n, alpha).", "quantifier": "all analyzed structures, all cells n", "why_tests_cant": "All integer cells.", "anchors": ["lattpy/structure.py:LatticeStructure.get_neighbors", "lattpy/structure.py:LatticeStructure.get_neighbor_positions"]}
{"id": "C36", "title": "Neighbour vectors connect an atom to its neighbours", "statement": "get_neighbor_vectors(alpha, d) are the differences between neighbour positions and the atom position, all of the d-th distance; with include_zero the zero vector is prepended.", "quantifier": "all analyzed structures, both flags", "why_tests_cant": "include_zero is only ever used with an atom at the origin.", "anchors": ["lattpy/structure.py:LatticeStructure.get_neighbor_vectors", "lattpy/structure.py:LatticeStructure.fourier_weights"]}
{"id": "C37", "title": "Site positions follow from indices consistently", "statement": "get_position(n, alpha), get_positions and translate agree; positions of distinct indices differ when the atoms are distinct modulo the lattice; estimate_index returns n for the lattice point n and tolerates displacements of less than half a cell in basis coordinates.", "quantifier": "all structures, cells and atoms", "why_tests_cant": "All integer cells.", "anchors": ["lattpy/structure.py:LatticeStructure.get_position", "lattpy/structure.py:LatticeStructure.get_positions", "lattpy/structure.py:LatticeStructure.estimate_index"]}
{"id": "C38", "title": "A structure survives conversion to a dictionary and back", "statement": "fromdict(todict(s)) has the same vectors, atoms, positions and connections as s and its analysis is the analysis of s; it raises exactly if s has no atoms or no connections.", "quantifier": "all structures whose unit cell is consistent in the sense of C29 (no add_atom raised after analyze)", "why_tests_cant": "All structures.", "anchors": ["lattpy/structure.py:LatticeStructure.todict", "lattpy/structure.py:LatticeStructure.fromdict"]}
{"id": "C39", "title": "The neighbour structure does not depend on the unit of length", "statement": "A chain has exactly the two neighbours at distance a, and generally scaling all lengths by s > 0 scales the distances and leaves neighbour indices unchanged.", "quantifier": "all positive lattice constants", "why_tests_cant": "Distances are rounded to a fixed number of decimals; fails only far away from the tested scale.", "anchors": ["lattpy/structure.py:LatticeStructure.DIST_DECIMALS", "lattpy/structure.py:LatticeStructure._compute_base_neighbors", "lattpy/__init__.py:simple_chain"]}
{"id": "C40", "title": "Building a region includes every lattice site in it", "statement": "Every site of the infinite lattice whose position lies in the requested region is part of the built lattice.", "quantifier": "all bases, unit cells, shapes and positions", "why_tests_cant": "The search window is estimated from corner points; it misses sites only for sheared bases away from the origin, for shifted atoms, or large windows.", "anchors": ["lattpy/structure.py:LatticeStructure.build_translation_vectors", "lattpy/structure.py:LatticeStructure.build_indices"]}
{"id": "C41", "title": "Built sites lie in the region and indices match positions", "statement": "Every site returned by build_indices lies in the region (up to the tolerance), row k of the positions is the position of row k of the indices, and no site occurs twice; a callback keeps exactly the sites it accepts.", "quantifier": "all bases, unit cells, shapes, callbacks", "why_tests_cant": "Two independent array reshapes must agree for every number of atoms and cells.", "anchors": ["lattpy/structure.py:LatticeStructure.build_indices", "lattpy/structure.py:LatticeStructure.check_points"]}
{"id": "C42", "title": "The boundary tolerance applies to both ends of a box", "statement": "check_points accepts a point iff it is within the box extended by tol on both sides of every axis.", "quantifier": "all boxes, points and tolerances", "why_tests_cant": "Only points within 1e-3 of the upper face distinguish the two behaviours.", "anchors": ["lattpy/structure.py:LatticeStructure.check_points"]}
{"id": "C43", "title": "A primitive build has the requested number of cells, whatever the lattice constant", "statement": "Building a hypercubic lattice with primitive=True and integer shape gives the same set of cell indices for every lattice constant a > 0.", "quantifier": "all lattice constants, all shapes", "why_tests_cant": "Tests use a = 1 only.", "anchors": ["lattpy/structure.py:LatticeStructure.build_translation_vectors", "lattpy/lattice.py:Lattice.build", "lattpy/__init__.py:finite_hypercubic"]}
{"id": "C44", "title": "compute_neighbors links exactly the connected pairs", "statement": "For sites i != j: j is listed as neighbour of i with distance d iff d is the rounded distance of the two sites and d is one of the configured distances of the two atom types.", "quantifier": "all finite site sets, all structures, all tie orders", "why_tests_cant": "Query truncation, filtering and re-sorting interact; all geometries.", "anchors": ["lattpy/structure.py:LatticeStructure.compute_neighbors", "lattpy/structure.py:LatticeStructure._filter_neighbors", "lattpy/spatial.py:KDTree.query"]}
{"id": "C45", "title": "The neighbour relation of a finite lattice is symmetric and irreflexive", "statement": "If j is a neighbour of i at distance level d then i is a neighbour of j at level d, and no site is its own (regular) neighbour, no neighbour is listed twice.", "quantifier": "all built lattices", "why_tests_cant": "Global property of all pairs of all lattices.", "anchors": ["lattpy/structure.py:LatticeStructure.compute_neighbors", "lattpy/lattice.py:Lattice.neighbors"]}
{"id": "C46", "title": "Stored neighbour data reads back unchanged", "statement": "After LatticeData.set, get_neighbors(i) returns exactly the entries with finite distance of row i in order, and distvals at the stored level is the given distance.", "quantifier": "all neighbour tables", "why_tests_cant": "Fails only if the table contains no padding entry at all.", "anchors": ["lattpy/data.py:LatticeData.set", "lattpy/data.py:LatticeData.get_neighbors", "lattpy/data.py:LatticeData.neighbor_mask", "lattpy/utils.py:create_lookup_table"]}
{"id": "C47", "title": "Neighbour selections partition the neighbours", "statement": "The neighbours of a site are the disjoint union of those per distance level (iter_neighbors), and of the periodic and the regular ones; with unique=True every undirected edge of a symmetric table is reported from exactly one of its ends.", "quantifier": "all data tables, sites and filter combinations", "why_tests_cant": "All tables.", "anchors": ["lattpy/data.py:LatticeData.neighbor_mask", "lattpy/data.py:LatticeData.get_neighbors", "lattpy/data.py:LatticeData.iter_neighbors"]}
{"id": "C48", "title": "Removing sites gives the induced sub-lattice", "statement": "After remove(sites) the remaining sites keep their order, indices, positions, and neighbour relations and distances among each other (renumbered), and links to removed sites disappear.", "quantifier": "all neighbour tables, all lists of sites (also repeated or negative indices as accepted by the deletion)", "why_tests_cant": "Renumbering loop is subtle: correctness for all site sets.", "anchors": ["lattpy/data.py:LatticeData.remove"]}
{"id": "C49", "title": "Removing sites keeps periodic information attached to the right sites", "statement": "After remove, each remaining site's periodic neighbours are flagged as before and periodic boundary conditions can be changed afterwards.", "quantifier": "all periodic lattices, all sites", "why_tests_cant": "Combination of two features not tested together.", "anchors": ["lattpy/data.py:LatticeData.remove", "lattpy/data.py:LatticeData.remove_periodic", "lattpy/data.py:LatticeData.neighbor_mask"]}
{"id": "C50", "title": "Sorting sites is a relabelling", "statement": "After sort the site data are a permutation of the old ones, ordered by the requested index column (descending if reversed), and site p(i) neighbours p(j) at level d (with the same periodic data) iff i neighboured j at level d before.", "quantifier": "all tables, all axes, both directions", "why_tests_cant": "Graph isomorphism for all tables.", "anchors": ["lattpy/data.py:LatticeData.sort"]}
{"id": "C51", "title": "Sorting neighbours only reorders each row by distance", "statement": "After sort_neighbors each row is the same multiset of (neighbour, level, periodic flag), ordered by distance with the invalid entries last.", "quantifier": "all tables; all tie orders", "why_tests_cant": "All tables.", "anchors": ["lattpy/data.py:LatticeData.sort_neighbors"]}
{"id": "C52", "title": "Setting periodic neighbours adds exactly these, removing them restores the lattice", "statement": "set_periodic adds the given neighbours flagged periodic, keeps all regular neighbours, and remove_periodic returns to exactly the state before.", "quantifier": "all tables and all periodic neighbour dictionaries that fit; also tables with gaps", "why_tests_cant": "Depends on the layout of free slots in each row.", "anchors": ["lattpy/data.py:LatticeData.set_periodic", "lattpy/data.py:LatticeData.remove_periodic"]}
{"id": "C53", "title": "Appending data is a disjoint union", "statement": "After append the first sites keep their neighbours and distances, the appended sites have their old neighbours shifted, there are no links between the parts and periodic neighbours are gone; the appended data object is not modified.", "quantifier": "all pairs of tables of any sizes", "why_tests_cant": "All sizes and widths; periodic leftovers.", "anchors": ["lattpy/data.py:LatticeData.append"]}
{"id": "C54", "title": "add_neighbors adds the link", "statement": "After add_neighbors(i, j, dist) site j is a neighbour of i at the stored level closest to dist and all other neighbours are unchanged.", "quantifier": "all tables", "why_tests_cant": "Fails silently when the row is full.", "anchors": ["lattpy/data.py:LatticeData.add_neighbors"]}
{"id": "C55", "title": "The data map lists each site and each directed link exactly once", "statement": "The map contains for every site its diagonal element (i,i) marked with its atom type and for every neighbour entry (i,j) one element marked with its distance level; rows are ascending; onsite and hopping masks partition the elements, by type and level.", "quantifier": "all tables; all tie orders of the sort", "why_tests_cant": "All tables.", "anchors": ["lattpy/data.py:DataMap.__init__", "lattpy/data.py:DataMap.onsite", "lattpy/data.py:DataMap.hopping", "lattpy/data.py:LatticeData.map"]}
{"id": "C56", "title": "Sparse matrices assembled from the map have the data at the mapped entries", "statement": "The compressed row layout returned by indices_indptr lists, for block row i, the columns of exactly the map elements of row i in data order, so build_csr and build_bsr put element k at (rows[k], cols[k]).", "quantifier": "all maps", "why_tests_cant": "All tables.", "anchors": ["lattpy/data.py:DataMap.indices_indptr", "lattpy/data.py:DataMap.build_bsr", "lattpy/data.py:DataMap.build_csr"]}
{"id": "C57", "title": "The data map always reflects the current neighbours", "statement": "At any time the map equals the map computed from the current neighbour data.", "quantifier": "all histories of operations and map calls", "why_tests_cant": "Cache invalidation over histories.", "anchors": ["lattpy/data.py:LatticeData.map", "lattpy/data.py:LatticeData.set_periodic", "lattpy/data.py:LatticeData.remove", "lattpy/data.py:LatticeData.sort"]}
{"id": "C58", "title": "Site searches return exactly the sites in the box", "statement": "find_sites returns in ascending order the sites with mins <= x <= maxs on every given axis (unspecified limits do not restrict), invert the complement; find_outer_sites the sites closer than offset to the border along the axis.", "quantifier": "all site sets, limits and axes", "why_tests_cant": "All point sets.", "anchors": ["lattpy/data.py:LatticeData.site_mask", "lattpy/data.py:LatticeData.find_sites", "lattpy/data.py:LatticeData.find_outer_sites"]}
{"id": "C59", "title": "A built lattice reports exactly the connected sites as neighbours", "statement": "After build, neighbors(i) is the set of all other sites j of the lattice whose rounded distance to i is a configured distance of their atom types.", "quantifier": "all structures, shapes and positions, end to end", "why_tests_cant": "Composition of query, filter, table and accessor over all inputs.", "anchors": ["lattpy/lattice.py:Lattice.build", "lattpy/lattice.py:Lattice.neighbors", "lattpy/structure.py:LatticeStructure.compute_neighbors", "lattpy/data.py:LatticeData.set"]}
{"id": "C60", "title": "min_neighbors removes dangling sites", "statement": "After build(min_neighbors=k) every site has at least k neighbours; the remaining sites are an induced sub-lattice of the full build.", "quantifier": "all lattices and k", "why_tests_cant": "Fails when the removal itself creates new dangling sites.", "anchors": ["lattpy/lattice.py:_filter_dangling", "lattpy/lattice.py:Lattice.build"]}
{"id": "C61", "title": "Super-index lookups invert the site tables", "statement": "superindex_from_index(indices[i]) = i and superindex_from_pos(positions[i]) = i for a built lattice, and None iff no site matches.", "quantifier": "all lattices with pairwise distinct sites", "why_tests_cant": "All sites of all lattices.", "anchors": ["lattpy/lattice.py:Lattice.superindex_from_pos", "lattpy/lattice.py:Lattice.superindex_from_index"]}
{"id": "C62", "title": "check_neighbors agrees with the neighbour lists", "statement": "check_neighbors(i, j) returns the distance level of j in the neighbours of i, and None iff j is not a neighbour of i.", "quantifier": "all built lattices and pairs of sites", "why_tests_cant": "Fails for cells with several atoms having different distances.", "anchors": ["lattpy/lattice.py:Lattice.check_neighbors", "lattpy/structure.py:LatticeStructure.num_distances"]}
{"id": "C63", "title": "Neighbour pairs and adjacency matrix describe the neighbour graph", "statement": "neighbor_pairs lists (i, j, level) once for every neighbour entry, with unique=True exactly those with i < j; adjacency_matrix is the N x N matrix with level+1 at (i,j) and zero elsewhere and is symmetric for a symmetric lattice.", "quantifier": "all lattices", "why_tests_cant": "All tables; matrix shape depends on isolated sites.", "anchors": ["lattpy/lattice.py:Lattice.neighbor_pairs", "lattpy/lattice.py:Lattice.adjacency_matrix"]}
{"id": "C64", "title": "Periodic neighbours are symmetric and correctly labelled", "statement": "If j is a periodic neighbour of i with translation t and distance d, then i is a periodic neighbour of j with translation -t and distance d, and |x_i + t - x_j| rounds to d; pairs that are regular neighbours are not repeated.", "quantifier": "all lattices, axes, sizes", "why_tests_cant": "Bookkeeping over dictionaries for all lattices; fails for small sizes with several distances.", "anchors": ["lattpy/lattice.py:Lattice._compute_pneighbors", "lattpy/lattice.py:Lattice.set_periodic"]}
{"id": "C65", "title": "All wrap-around directions are considered", "statement": "For periodic axes the translation vectors used cover, up to sign, every combination of shifts by 0, +1 or -1 period along at most two of the periodic axes.", "quantifier": "all dimensions and axis selections", "why_tests_cant": "3D diagonal wrap-around with longer-range neighbours is untested.", "anchors": ["lattpy/lattice.py:Lattice.periodic_translation_vectors", "lattpy/lattice.py:Lattice._build_periodic_translation_vector"]}
{"id": "C66", "title": "Minimum distances are symmetric periodic distances", "statement": "minimum_distances(i)[j] is the minimum over the direct distance and the distances to all considered images; it is symmetric in i and j, at most the direct distance and zero for i = j; in one dimension it is the distance on the ring.", "quantifier": "all lattices, sites and periodic axes", "why_tests_cant": "All site pairs.", "anchors": ["lattpy/lattice.py:Lattice.minimum_distances"]}
{"id": "C67", "title": "periodic_axes matches the periodic neighbours present", "statement": "After any sequence of build and set_periodic calls, periodic_axes is empty iff the lattice has no periodic neighbours requested, and always names the axes of the last set_periodic/build call.", "quantifier": "all histories", "why_tests_cant": "Early return and rebuild paths leave stale state.", "anchors": ["lattpy/lattice.py:Lattice.set_periodic", "lattpy/lattice.py:Lattice.build"]}
{"id": "C68", "title": "Appending a lattice connects the interface like a direct build", "statement": "After append/repeat/extend the neighbours across the interface are exactly the pairs with a configured distance, at the right level, and all of them are stored.", "quantifier": "all lattices, axes and sides", "why_tests_cant": "Depends on row width, rounding and unconnected pairs.", "anchors": ["lattpy/lattice.py:Lattice._append", "lattpy/lattice.py:Lattice._compute_connection_neighbors", "lattpy/lattice.py:Lattice.repeat", "lattpy/data.py:LatticeData.add_neighbors"]}
{"id": "C69", "title": "Geometric summaries bound the sites", "statement": "limits is the tight bounding box of the site positions; relative_position maps [0,1]^d into it with 0 and 1 at the corners; the center is the midpoint and the center of gravity (positive masses) lies inside.", "quantifier": "all built lattices", "why_tests_cant": "All point sets.", "anchors": ["lattpy/lattice.py:Lattice.limits", "lattpy/lattice.py:Lattice.relative_position", "lattpy/lattice.py:Lattice.center", "lattpy/lattice.py:Lattice.center_of_gravity", "lattpy/data.py:LatticeData.get_limits"]}
{"id": "C70", "title": "The volume counts each occupied cell once", "statement": "num_cells is the number of distinct cells with at least one site, num_cells <= num_sites <= num_cells * num_base, and volume is num_cells times the cell volume.", "quantifier": "all built lattices", "why_tests_cant": "All site sets.", "anchors": ["lattpy/lattice.py:Lattice.num_cells", "lattpy/lattice.py:Lattice.volume"]}
{"id": "C71", "title": "A failing build leaves the previous lattice usable", "statement": "If build raises, the sites and neighbours of the previous build are unchanged.", "quantifier": "all failing calls", "why_tests_cant": "Exception paths with prior state.", "anchors": ["lattpy/lattice.py:Lattice.build", "lattpy/data.py:LatticeData.reset"]}
{"id": "C72", "title": "Lattices can be compared and hashed at any time", "statement": "== is an equivalence relation on lattices compatible with hash and works for lattices in every stage of configuration.", "quantifier": "all lattices, also not yet built ones", "why_tests_cant": "State dependent failure.", "anchors": ["lattpy/lattice.py:Lattice.__eq__", "lattpy/lattice.py:Lattice.__hash__", "lattpy/lattice.py:Lattice.dumps", "lattpy/lattice.py:Lattice.todict"]}
{"id": "C73", "title": "A dispersion path runs through all points in order", "statement": "build(n) has (num_points-1)*n points; section i starts at point i and ends at point i+1 (n >= 2) and all its points lie on the straight segment between them, equally spaced.", "quantifier": "all paths and n", "why_tests_cant": "All point lists.", "anchors": ["lattpy/disptools.py:DispersionPath.build", "lattpy/disptools.py:DispersionPath.add", "lattpy/disptools.py:DispersionPath.cycle"]}
{"id": "C74", "title": "Ticks and labels match the points", "statement": "labels and points always have the same length; get_ticks gives one tick per point and the built path at tick i (i < num_points-1) is point i.", "quantifier": "all histories of path construction", "why_tests_cant": "All histories.", "anchors": ["lattpy/disptools.py:DispersionPath.get_ticks", "lattpy/disptools.py:DispersionPath.add", "lattpy/disptools.py:DispersionPath.add_points"]}
{"id": "C75", "title": "The scaled k axis is monotone and aligned with the ticks", "statement": "The x values of a dispersion plot have one entry per point, never decrease for non-negative scales, and the ticks are the section borders.", "quantifier": "all section counts and scales", "why_tests_cant": "All lengths.", "anchors": ["lattpy/disptools.py:_scale_xaxis"]}
{"id": "C76", "title": "Connection colours are symmetric and the last assignment wins", "statement": "connection_color_array is a symmetric num_base x num_base table with the colour of the last entry naming the pair (in either order), and the default elsewhere.", "quantifier": "all colour lists", "why_tests_cant": "All lists.", "anchors": ["lattpy/plotting.py:connection_color_array"]}
{"id": "C77", "title": "Minimum distances are distances on the torus", "statement": "For orthogonal lattices minimum_distances(i)[j] is the smallest distance between site j and site i shifted by any whole numbers of periods along the periodic axes.", "quantifier": "all orthogonal lattices, dimensions, axis selections and pairs of sites", "why_tests_cant": "Only a few one- and two-dimensional lattices are tested; the missing diagonal translation shows in three dimensions only.", "anchors": ["lattpy/lattice.py:Lattice.minimum_distances", "lattpy/lattice.py:Lattice.periodic_translation_vectors"]}
{"id": "C78", "title": "Queries with arbitrary points list the nearest points of the tree", "statement": "KDTree.query(x) for arbitrary query points x lists, for each of them, the nearest points of the tree that are closer than max_dist, in order of distance and padded; zero-distance neighbours are left out unless include_zero is set.", "quantifier": "every tree, every list of query points in or outside the tree, every k, max_dist, rounding and tie order", "why_tests_cant": "The removal of zero distances depends on all rows at once, so one query point changes the result of another; tests query the tree with its own points.", "anchors": ["lattpy/spatial.py:KDTree.query"]}
{"id": "C79", "title": "Creating an atom stores what was given and nothing else changes", "statement": "Atom(name, radius, color, weight, **kwargs) creates one new atom with a new index number, the given name (A if no name or an empty name is given), the given weight, and the parameters color, radius and the keyword arguments in this order; no other atom changes. A keyword argument named like a constructor parameter raises TypeError.", "quantifier": "every session of atom operations before the call, all names, values and keyword arguments", "why_tests_cant": "The counter and the dictionaries are shared state, so independence of the other atoms is a statement about every earlier sequence of operations.", "anchors": ["lattpy/atom.py:Atom.__init__"]}
{"id": "C80", "title": "Preset bases have the lengths and angles of their name", "statement": "chain, square, sc and hypercubic have orthogonal vectors of length |a|; rectangular has orthogonal vectors of lengths |a1| and |a2|; oblique has these lengths and the enclosed angle alpha; hexagonal has two vectors of equal length enclosing 60 degrees. A vanishing constant raises LinAlgError.", "quantifier": "all non-zero real constants, all angles with non-zero sine, every dimension of hypercubic", "why_tests_cant": "Identities over continuous parameters and all dimensions; the tests use one constant.", "anchors": ["lattpy/basis.py:LatticeBasis.hypercubic", "lattpy/basis.py:LatticeBasis.oblique", "lattpy/basis.py:LatticeBasis.hexagonal"]}
{"id": "C81", "title": "fcc and bcc generate the centred cubic point sets", "statement": "The lattice points of fcc(a) are exactly the corners and face centres of the cubes of edge a, and those of bcc(a) exactly the corners and body centres.", "quantifier": "all non-zero constants, all points of space", "why_tests_cant": "Equality of two infinite sets of points.", "anchors": ["lattpy/basis.py:LatticeBasis.fcc", "lattpy/basis.py:LatticeBasis.bcc"]}
{"id": "C82", "title": "The layers of hexagonal3d are az apart", "statement": "The third vector of hexagonal3d(a, az) is (0, 0, az).", "quantifier": "all non-zero constants a and az", "why_tests_cant": "The vectors agree for a = 2 only; no test builds this preset.", "anchors": ["lattpy/basis.py:LatticeBasis.hexagonal3d"]}
{"id": "C83", "title": "The neighbours follow the configuration", "statement": "The stored neighbours are those of the current vectors, atoms, positions and connections, whatever was configured and analysed before.", "quantifier": "every history of configuration calls", "why_tests_cant": "Staleness depends on the order of calls; tests configure once and analyse once.", "anchors": ["lattpy/structure.py:LatticeStructure.add_connection", "lattpy/structure.py:LatticeStructure.add_connections", "lattpy/structure.py:LatticeStructure.analyze"]}
{"id": "C84", "title": "Preset lattices with one level link each atom to its nearest neighbours", "statement": "With neighbors=1 (honeycomb and graphene have no such argument) the preset lattices are created without error, have their atoms at the documented places, and every atom is linked to exactly its nearest neighbours: 2d along the axes for chain, square, cubic and hypercubic, six for the hexagonal lattice, three of the other site for honeycomb and graphene, two of the other kind for the alternating chain, six of the other kind for NaCl.", "quantifier": "all lattice constants (resolved by the six decimals of distances), every atom argument, every session, every result of the k-d tree", "why_tests_cant": "Exact sets of neighbours of an infinite lattice for all constants; the tests look at one constant and mostly do not look at the neighbours at all.", "anchors": ["lattpy/__init__.py:simple_square", "lattpy/__init__.py:simple_hexagonal", "lattpy/__init__.py:honeycomb", "lattpy/__init__.py:graphene", "lattpy/__init__.py:alternating_chain", "lattpy/__init__.py:nacl_structure", "lattpy/__init__.py:simple_rectangular"]}
{"id": "C85", "title": "The lattice constant of a preset lattice is the length of its basis vectors", "statement": "Every basis vector of a lattice returned by a preset has length |a|, the argument documented as lattice constant (length of the basis-vector).", "quantifier": "all constants, atoms and numbers of neighbour levels", "why_tests_cant": "An identity over continuous parameters.", "anchors": ["lattpy/__init__.py:simple_square", "lattpy/__init__.py:simple_hexagonal", "lattpy/__init__.py:honeycomb", "lattpy/__init__.py:graphene", "lattpy/__init__.py:nacl_structure"]}
{"id": "C86", "title": "The Wigner-Seitz cell accepts exactly the points closest to the origin", "statement": "wigner_seitz_cell() of a basis returns a cell whose check(x) is true only for points at least as close to the origin as to every lattice point and true for every point strictly closer to the origin; its vertices are the corners of that cell. For a hypercubic lattice this is the cube |x_k| <= |a|/2 with corners (+-a/2, ..., +-a/2).", "quantifier": "all points, all lattice constants, all bases of the stated kind in every dimension", "why_tests_cant": "Closeness to infinitely many lattice points for all points and constants; the tests look at a few fixed points of square cells.", "anchors": ["lattpy/basis.py:LatticeBasis.wigner_seitz_cell", "lattpy/basis.py:LatticeBasis.get_neighbor_cells", "lattpy/spatial.py:VoronoiTree.__init__", "lattpy/spatial.py:WignerSeitzCell.check"]}
{"id": "C87", "title": "The Brillouin zone accepts exactly the wave vectors closest to zero", "statement": "brillouin_zone() returns a cell whose check(k) is true only for wave vectors at least as close to zero as to every vector G of the reciprocal lattice (G.a_i a multiple of 2 pi for every basis vector) and true for every k strictly closer to zero; for a hypercubic lattice it is the cube |k_i| <= pi/|a|, whatever min_negative is.", "quantifier": "all wave vectors, lattice constants and values of min_negative, all bases of the stated kind in one to three dimensions", "why_tests_cant": "Closeness to infinitely many reciprocal lattice vectors over continuous parameters.", "anchors": ["lattpy/basis.py:LatticeBasis.brillouin_zone", "lattpy/basis.py:LatticeBasis.reciprocal_vectors", "lattpy/basis.py:LatticeBasis.wigner_seitz_cell", "lattpy/spatial.py:WignerSeitzCell.check"]}
{"id": "C88", "title": "Fourier weights are the sums of the neighbour phases", "statement": "fourier_weights(k, alpha, distidx) is the sum of exp(i k.(p - p0)) over the positions p of the neighbours get_neighbors(alpha=alpha, distidx=distidx) of the atom at p0: it equals the number of neighbours at k = 0, never exceeds it in modulus, and is conjugated by k -> -k; if the neighbours lie on one sublattice, adding a reciprocal lattice vector only multiplies it by the phase between the sublattices, and if it is the atom's own sublattice the weight is real and periodic. It is sum_i 2 cos(k_i a) for hypercubic presets and the textbook structure factors for the hexagonal and honeycomb presets. For an array of wave vectors it gives one weight for each of them.", "quantifier": "all configurations reachable by any sequence of calls, all atoms, shells and wave vectors; all lattice constants of at least 1e-5 for the presets", "why_tests_cant": "Continuous wave vectors and lattice constants, and arbitrary configurations.", "anchors": ["lattpy/structure.py:LatticeStructure.fourier_weights", "lattpy/structure.py:LatticeStructure.get_neighbor_vectors", "lattpy/__init__.py:simple_hexagonal", "lattpy/__init__.py:honeycomb"]}
{"id": "C89", "title": "The dictionary of the base atoms groups the positions by atom name", "statement": "get_base_atom_dict() has one key for every atom name of the unit cell and under it the positions of exactly the atoms of that name, in the order of the cell; with atleast2d one-dimensional positions are returned as vectors with two components.", "quantifier": "all configurations reachable by any sequence of calls, all hash functions of strings, both values of atleast2d", "why_tests_cant": "Arbitrary numbers of atoms, names and call histories.", "anchors": ["lattpy/structure.py:LatticeStructure.get_base_atom_dict", "lattpy/atom.py:Atom.__hash__", "lattpy/atom.py:Atom.__eq__"]}
{"id": "C90", "title": "vrange returns exactly the evenly spaced vectors of the interval", "statement": "vrange(start, stop, step, sort_axis) returns each vector whose components are start_k, start_k + step_k, start_k + 2 step_k, ... before stop_k exactly once, sorted by the chosen component (the first by default); vrange(stop) returns the vectors of natural numbers below stop. An interval that ends a whole step or more before its start and a zero step raise an error.", "quantifier": "all dimensions, all real starts, stops and steps (also negative steps), all sort axes", "why_tests_cant": "Continuous intervals and steps in every dimension.", "anchors": ["lattpy/spatial.py:vrange"]}
{"id": "C91", "title": "The grid of a Wigner-Seitz cell covers its limits and blanks the points outside", "statement": "meshgrid(nums=n, offset, check, endpoint) consists of all combinations of n_k evenly spaced numbers on every axis between the smallest and the largest coordinate of the vertices, stretched by 1 + offset; with steps the spacing is the step. With check exactly the vectors rejected by check() are NaN, so the remaining ones are closest to the origin and no interior vector is lost. Neither nums nor steps, a negative number, a zero step and a cell without vertices raise a ValueError.", "quantifier": "all cells, dimensions, numbers, steps, offsets and flags", "why_tests_cant": "Continuous steps and offsets, all cells and dimensions.", "anchors": ["lattpy/spatial.py:WignerSeitzCell.meshgrid", "lattpy/spatial.py:WignerSeitzCell.linspace", "lattpy/spatial.py:WignerSeitzCell.arange", "lattpy/spatial.py:WignerSeitzCell.limits"]}
{"id": "C92", "title": "The positions of an atom and the index limits describe the sites", "statement": "LatticeData.get_positions(alpha) lists the positions of exactly the sites of that atom, in the order of the sites; after a build these are the position of the atom in the unit cell moved by lattice vectors within the cell limits, and a number that belongs to no atom has no positions. get_index_limits, get_cell_limits and get_translation_limits are the smallest and largest values of every column of the indices and raise a ValueError for data without sites.", "quantifier": "all lattice data, all atoms and numbers, all dimensions, all reachable lattices and build arguments", "why_tests_cant": "All builds of all configurable lattices in every dimension.", "anchors": ["lattpy/data.py:LatticeData.get_positions", "lattpy/data.py:LatticeData.get_index_limits", "lattpy/data.py:LatticeData.get_cell_limits", "lattpy/data.py:LatticeData.get_translation_limits"]}
{"id": "C93", "title": "compute_connections lists the connected pairs of two lattices", "statement": "compute_connections(latt) lists the pairs of a site of this lattice and a site of the other lattice whose distance is one of the configured neighbour distances, each pair once, ordered by the first site, together with the distance; pairs at any other distance are not listed. Exchanging two lattices with the same configuration exchanges the sites of the pairs.", "quantifier": "all reachable analyzed lattices, all data of the other lattice, all dimensions", "why_tests_cant": "Continuous positions of the sites of both lattices, all configurations.", "anchors": ["lattpy/lattice.py:Lattice.compute_connections"]}
{"id": "C94", "title": "Formatted times denote the time up to the printed precision", "statement": "The text of frmt_time(seconds) denotes the time up to half of the last printed digit (a microsecond below a millisecond, 0.1 milliseconds below a second, 0.1 seconds below an hour, a second from an hour on), and its numbers are in the range of a clock: less than 60 seconds and minutes and less than 1000 milli- and microseconds. The short form is 00:00 for times that are not positive, minutes and seconds below an hour, and hours and minutes without the seconds from there on.", "quantifier": "all real times, both forms", "why_tests_cant": "Continuous times; the carries occur only in narrow intervals below the unit changes.", "anchors": ["lattpy/utils.py:frmt_time"]}
{"id": "C95", "title": "A structure restored from a dictionary is independent of the original", "statement": "After copy = fromdict(structure.todict()), no call on the copy (add_atom, add_connection, add_connections, analyze) changes what the original reports: its vectors, atoms, atom positions, connections and the results of its analysis.", "quantifier": "all reachable structures of any dimension, all histories of calls on the copy (including calls that raise)", "why_tests_cant": "Histories of arbitrary length on one object observed through another; aliasing shows only for particular calls.", "anchors": ["lattpy/structure.py:LatticeStructure.todict", "lattpy/structure.py:LatticeStructure.fromdict"]}
{"id": "C96", "title": "num_distances is the number of different neighbour distances", "statement": "After data has been set, num_distances is the number of different distances between neighbouring sites.", "quantifier": "all neighbour tables with at most 256 different entries", "why_tests_cant": "Tables of any size and contents; the marker of missing neighbours occurs only when sites have different numbers of neighbours.", "anchors": ["lattpy/data.py:LatticeData.num_distances", "lattpy/data.py:LatticeData.set"]}
{"id": "C97", "title": "Symmetry points are the corners, edge centres and face centres of the cell", "statement": "symmetry_points returns the origin, the corners, the edge centres and (in three dimensions) the face centres of the Voronoi cell, each once. Every returned point lies on the boundary between two cells, for points at the same distance from the origin on the boundary of the cell of the origin. In two dimensions the edge centres are the midpoints of the edges and the call does not raise; for the square lattice they are (±a/2, 0) and (0, ±a/2), for the simple cubic lattice the face centres are ±a/2 on one axis. In four and more dimensions NotImplementedError is raised.", "quantifier": "all point sets (all lattice constants for the square and simple cubic lattice), all orders in which Qhull may list vertices and ridges", "why_tests_cant": "All configurations of points; the order of the vertices and ridges depends on Qhull.", "anchors": ["lattpy/spatial.py:WignerSeitzCell.symmetry_points", "lattpy/spatial.py:VoronoiTree.__init__", "lattpy/utils.py:chain"]}
{"id": "C98", "title": "finite_hypercubic builds the integer grid, or the torus with periodic axes", "statement": "finite_hypercubic(s) for a sequence of positive integers (lattice constant 1, nearest neighbours) never raises and has exactly one site for every cell n with 0 <= n_k < s_k, at the position n. The neighbours of a site are, once each, the sites one step away along one axis. With periodic axes the last cell along such an axis is followed by the first one; these neighbours carry the translation by s_k cells and the distance 1.", "quantifier": "all dimensions up to 10^9, all sequences of positive integers, all sets of periodic axes with three or more cells along each of them, all atoms, all orders of the k-d tree", "why_tests_cant": "All sizes, dimensions and choices of axes; tests fix a few shapes.", "anchors": ["lattpy/__init__.py:finite_hypercubic", "lattpy/lattice.py:Lattice.build", "lattpy/lattice.py:Lattice.set_periodic"]}
{"id": "C99", "title": "The tables of a lattice stay consistent whatever the user does", "statement": "After any sequence of configuration calls, builds and set_periodic calls, in any order and whether each of them succeeds or raises, the data of the lattice are consistent as long as at most 256 different distances are stored: all tables have one row per site and the same number of columns, invalid_idx equals num_sites, the distance values are strictly ascending and invalid_distidx is the last of them, every used slot names an existing site and every slot that is not periodic has a zero translation vector. Hence get_neighbors works for every site with every combination of periodic and unique and returns site numbers below num_sites, and raises IndexError for every other site number. The same holds after append, extend and repeat calls mixed into the history, provided that set_periodic is only used on tables with an empty slot and repeat is called with more than one repetition only on lattices without periodic neighbours.", "quantifier": "all dimensions, all histories of calls (successful or raising), all build arguments, all axes, all neighbour and sorting oracles; for append, extend and repeat all histories in which at most 256 distances are stored before each join set_periodic meets a padded table and repeat with num > 1 meets no periodic neighbour", "why_tests_cant": "Tests run a few fixed sequences of successful calls; the claim is an invariant over unboundedly many sequences, including sequences in which calls raise in the middle.", "anchors": ["lattpy/lattice.py:Lattice.build", "lattpy/lattice.py:Lattice.set_periodic", "lattpy/lattice.py:Lattice._append", "lattpy/lattice.py:Lattice.append", "lattpy/lattice.py:Lattice.extend", "lattpy/lattice.py:Lattice.repeat", "lattpy/data.py:LatticeData.set", "lattpy/data.py:LatticeData.set_periodic", "lattpy/data.py:LatticeData.remove_periodic", "lattpy/data.py:LatticeData.append", "lattpy/data.py:LatticeData.get_neighbors"]}
{"id": "C100", "title": "The plot of a lattice shows the stored sites and connections", "statement": "In up to three dimensions plot of a built lattice succeeds (atoms having colours and radii, con_colors naming existing atoms) and draws: for every base atom one group of circles at exactly the positions of the sites of that atom, with the radius, name and colour of the atom (C0, C1, ... if the atom has no colour); for every pair of regular neighbours one line from the site with the smaller number to the other one, as often as the pair is listed, in the colour asked for that pair of atoms (black by default, the last entry of con_colors wins); if show_periodic, for every periodic neighbour one grey line starting at the site in the direction of the copy of the neighbour beyond the boundary, scaled by pscale, and without show_periodic no such line; if show_indices, the number of each site beside its position. With the default scale the two lines of a periodic pair meet halfway. A lattice that was not built raises IndexError, more than three dimensions raise ValueError. For finite_hypercubic the lines are exactly the steps between cells one step apart, and with periodic axes grey lines leave both ends of every row.", "quantifier": "all lattices with consistent tables, in particular after all histories of configuration calls, build and set_periodic; all scales, colours and offsets; all grid sizes (three or more cells on periodic axes)", "why_tests_cant": "The test-suite marks the plotting code `no cover` and never looks at the artists; the claim is about all lattices and boundary conditions.", "anchors": ["lattpy/lattice.py:Lattice.plot", "lattpy/plotting.py:draw_sites", "lattpy/plotting.py:draw_vectors", "lattpy/plotting.py:connection_color_array", "lattpy/lattice.py:Lattice.neighbors", "lattpy/data.py:LatticeData.get_neighbors", "lattpy/data.py:LatticeData.get_positions"]}
{"id": "C101", "title": "The plot of the unit cell shows exactly the edges of the cell", "statement": "draw_unit_cell draws an arrow from the origin for every basis vector. With outlines (up to three dimensions) the arrows and lines together are exactly the edges of the parallelepiped spanned by the basis vectors: every edge starts at a sum of some basis vectors and runs along one of the others, every such edge is drawn, and nothing else. In the plane each of the four edges is drawn once; in space fifteen artists are drawn for twelve edges, the three edges at the far corner twice.", "quantifier": "all vectors in one, two or three dimensions", "why_tests_cant": "The plotting code is excluded from the tests; the claim holds for all vectors.", "anchors": ["lattpy/plotting.py:draw_unit_cell", "lattpy/plotting.py:draw_arrows"]}
{"id": "C102", "title": "The plot of the unit cell shows its atoms and their neighbours", "statement": "In up to three dimensions plot_cell of an analysed lattice succeeds (atoms having colours and numeric radii, con_colors naming existing atoms) and draws: with show_vecs the basis vectors and the outlines of the cell; one circle for every base atom at its position with its radius, name and colour; for every atom one line to each of its neighbours at its first num_distances distances, each neighbour once, in the colour asked for that pair of atoms; and for every atom one group of circles with 0.6 times the radius and the colour of the atom, at exactly the positions of those neighbours of that kind that lie in other cells, each position once. If no atom has neighbours at more than num_distances different distances, in particular for one atom per cell, the lines lead to all neighbours found by analyze. Without show_neighbors no analysis is needed; with it a lattice with connections that was not analysed raises NotAnalyzedError; more than three dimensions raise ValueError.", "quantifier": "all structures reachable by configuration calls, all flags and colours, all neighbour oracles", "why_tests_cant": "The plotting code is excluded from the tests; the claim covers all unit cells and colour lists. It fails for cells with two kinds of atoms, which a test of a one-atom cell cannot show.", "anchors": ["lattpy/structure.py:LatticeStructure.plot_cell", "lattpy/structure.py:LatticeStructure.num_distances", "lattpy/plotting.py:connection_color_array"]}
{"id": "C103", "title": "Accessors of a built lattice: position, iter_neighbors and nearest_neighbors", "statement": "After build, position(i) is the position of the site named by row i of the indices and raises IndexError beyond the last site, and bool(data) is True. iter_neighbors(i) yields the neighbours of i grouped by distance in ascending order of the distance, every neighbour in exactly one group and no group empty. nearest_neighbors(i) lists exactly the neighbours of i at the smallest distance that occurs between any two neighbours in the lattice, with unique=True only those with a larger number.", "quantifier": "all reachable configurations with distinct sites, all build arguments without min_neighbors, periodic axes and explicit dtype, all sites, all query oracles", "why_tests_cant": "Tests check a few sites of regular lattices, where level 0 is the nearest distance of every site; the claim quantifies over all shapes, and fails for lattices without any neighbours and for sites all of whose neighbours are far.", "anchors": ["lattpy/lattice.py:Lattice.position", "lattpy/lattice.py:Lattice.nearest_neighbors", "lattpy/lattice.py:Lattice.iter_neighbors", "lattpy/data.py:LatticeData.iter_neighbors", "lattpy/data.py:LatticeData.__bool__"]}
{"id": "C104", "title": "The dictionary of an atom shows its number, name and parameters", "statement": "In any session, atom.dict() has the keys index and name followed by the other parameters in their order, each parameter with its value, index and name with the number and name of the atom. Number, name and weight of an atom never change, whatever is done to it or to other atoms, and atom.name and atom.weight answer with them.", "quantifier": "all histories of creating, copying and modifying atoms, all atoms, all parameters", "why_tests_cant": "Tests look at one fresh atom; the claim covers all histories of modifications and parameters named like attributes, for which it fails.", "anchors": ["lattpy/atom.py:Atom.dict", "lattpy/atom.py:Atom.weight", "lattpy/atom.py:Atom.name", "lattpy/atom.py:Atom.__getattribute__"]}
{"id": "C105", "title": "A plotted dispersion shows every band along the path", "statement": "plot_dispersion of energies with one row per wave vector of a path draws one line per band: its y values are the energies of the band in order, its x values are one axis for all bands on which wave vector j of section i lies j times the scale of the section beyond tick i; its colour is the one asked for that band (C0, C1, ... by default, one colour for all, the i-th of a list, the colour of an atom standing for the atom). With fill there is one box per band as wide as the axis and as high as the band, without it none. A new figure has one tick with its label for every point of the path and ends at the last one, and the tick is where the wave vector of that point is drawn. DispersionPath.plot_dispersion uses the labels and the relative lengths of the sections of the path, so that the first section has scale one. A list with too few colours raises IndexError.", "quantifier": "all energies, numbers of bands, path points, wave vectors per section, scales, colours and grid arguments", "why_tests_cant": "The plotting code is excluded from the tests; the claim covers all paths and colour arguments. It fails for one atom as colour, for other numbers of wave vectors, for current versions of Matplotlib and for the axes made by path.subplots.", "anchors": ["lattpy/disptools.py:plot_dispersion", "lattpy/disptools.py:_draw_dispersion", "lattpy/disptools.py:_color_list", "lattpy/disptools.py:bandpath_subplots", "lattpy/disptools.py:DispersionPath.plot_dispersion", "lattpy/disptools.py:DispersionPath.subplots"]}
{"id": "C106", "title": "A dispersion with its density of states shows both", "statement": "plot_disp_dos draws the bands as plot_dispersion does, and for every given density of states one curve with the values as x and the energies as y, in the colour of the band of the same number. DispersionPath.plot_disp_dos uses the labels and the relative lengths of the sections of the path.", "quantifier": "all energies, densities of states (at most one per band), scales, colours and grid arguments other than True", "why_tests_cant": "The plotting code is excluded from the tests; the claim covers all data. It fails for more densities of states than bands and for grid=True.", "anchors": ["lattpy/disptools.py:plot_disp_dos", "lattpy/disptools.py:disp_dos_subplots", "lattpy/disptools.py:DispersionPath.plot_disp_dos"]}
{"id": "C107", "title": "The plot of bands over a grid of wave vectors shows the energies", "statement": "plot_bands in one dimension draws every band over the wave vectors between the smallest and the largest of them. In two dimensions the colour at (kx, ky) is the energy of a single band, or the sum of the absolute values of the energies of all bands, the first index of the table belonging to ky; the colour bar is labelled accordingly. Without wave vectors IndexError is raised; in one dimension tables that do not fit and an empty axis raise ValueError; in two dimensions a grid without exactly two axes raises ValueError, tables that do not fit and less than two wave vectors along an axis TypeError; other dimensions raise NotImplementedError.", "quantifier": "all energies and wave vectors", "why_tests_cant": "The plotting code is excluded from the tests; the label of a single band is wrong, which shows only for a two-dimensional table with one band.", "anchors": ["lattpy/disptools.py:plot_bands"]}
{"id": "C108", "title": "Finite lattices of the presets can be built and link exactly the nearest sites", "statement": "For simple_chain, simple_square, simple_cubic, the hypercubic lattice of any dimension, simple_hexagonal (with neighbors=1), honeycomb and graphene, build of a box at the origin succeeds for every size with non-negative sides and keeps the site at the origin. In every lattice that is built from them, with any shape, position, callback and with or without primitive and check, neighbors(i) is exactly the set of the sites at the distance a from site i (sqrt(3) a for simple_hexagonal), without repetitions.", "quantifier": "all lattice constants of at least 1e-5 (for successful builds also negative ones of this absolute value), all sizes, shapes, positions and callbacks, every atom argument, every session and every answer of the k-d tree; without min_neighbors, periodic axes and an explicit index type", "why_tests_cant": "The tests build a few small lattices of fixed size; the claim is about all sizes, shapes and constants and about the exact neighbour set of every site, end to end from the preset to neighbors.", "anchors": ["lattpy/__init__.py:simple_chain", "lattpy/__init__.py:simple_square", "lattpy/__init__.py:simple_cubic", "lattpy/__init__.py:simple_hexagonal", "lattpy/__init__.py:honeycomb", "lattpy/__init__.py:graphene", "lattpy/lattice.py:Lattice.build", "lattpy/lattice.py:Lattice.neighbors"]}
{"id": "C109", "title": "What == of structures and lattices compares", "statement": "Two structures with atoms are equal exactly if the texts of their vectors, atoms, positions and connections agree, two built lattices if moreover the texts of their shapes agree (for texts without ';' and newline and without an MD5 collision). Equal lattices describe the same sites with the same neighbours, and lattices made by the same calls are equal.", "quantifier": "all structures and built lattices of every dimension, every way of printing numbers, every session", "why_tests_cant": "The tests compare a lattice with a copy of itself; whether two different lattices can be equal, or equal ones unequal, is a statement about all pairs.", "anchors": ["lattpy/lattice.py:Lattice.__eq__", "lattpy/lattice.py:Lattice.__hash__", "lattpy/lattice.py:Lattice.dumps", "lattpy/structure.py:LatticeStructure.__eq__", "lattpy/structure.py:LatticeStructure.__hash__", "lattpy/structure.py:LatticeStructure.dumps", "lattpy/atom.py:Atom.__repr__"]}
{"id": "C110", "title": "A matrix filled through the data map is the tight-binding Hamiltonian", "statement": "For a built lattice, `data = dmap.zeros(); data[dmap.onsite(alpha)] = eps; data[dmap.hopping(n)] = t; …; dmap.build_csr(data)` is a square matrix with one row per site whose diagonal holds the last value assigned to the atom of the site, whose entry (i, j) holds the last value assigned to level n if j is a neighbour of i at level n, and which is zero elsewhere; `build_bsr` gives the same blocks. In particular it equals the matrix of the README loop `ham[i, i] = eps; ham[i, j] = t for j in nearest_neighbors(i)`, and for the preset lattices with one shell the off-diagonal value stands exactly at the pairs of sites at the nearest distance.", "quantifier": "all configurations, all histories of build, set_periodic, append, extend and repeat, all sequences of assignments to masks, all values (numbers or blocks), all orders np.argsort may give to ties; for the presets all lattice constants, shapes, positions and callbacks", "why_tests_cant": "The suite checks the matrix of one chain of six sites for one pair of values. It says nothing about several shells or atoms, overlapping masks, periodic lattices, or the order of equal rows after argsort.", "anchors": ["lattpy/data.py:DataMap.zeros", "lattpy/data.py:DataMap.onsite", "lattpy/data.py:DataMap.hopping", "lattpy/data.py:DataMap.build_csr", "lattpy/data.py:DataMap.build_bsr", "lattpy/data.py:LatticeData.map", "lattpy/lattice.py:Lattice.dmap", "lattpy/lattice.py:Lattice.nearest_neighbors"]}
{"id": "C111", "title": "A lattice of whole cells made periodic is a torus: every site has as many neighbours as in the infinite lattice", "statement": "Take a structure whose connections are those between nearest sites. Build it so that the sites are exactly those of whole unit cells, at least three along each periodic direction. Then set_periodic succeeds, and afterwards two sites are neighbours exactly if some image of the second, shifted by the size of the lattice, is at the nearest distance from the first. No site is listed twice and no neighbour is missing, also across the corners. With all directions periodic every site has the coordination number of the infinite lattice. For simple_hexagonal that is six, for honeycomb and graphene three.", "quantifier": "All structures with nearest connections at most one cell away, all block sizes of at least three cells, all sets of periodic axes, all answers of the tree queries; for the presets all lattice constants of at least 1, all primitive box shapes enclosing whole cells, all atoms.", "why_tests_cant": "The tests check single small lattices. Whether corners and edges of all block sizes get every neighbour exactly once, for skew cells with several atoms, ranges over infinitely many sizes.", "anchors": ["lattpy/lattice.py:Lattice.set_periodic", "lattpy/lattice.py:Lattice._compute_pneighbors", "lattpy/lattice.py:Lattice.build", "lattpy/lattice.py:Lattice.neighbors", "lattpy/data.py:LatticeData.set_periodic"]}
{"id": "C112", "title": "Plotting a shape draws the boundary of the region it contains", "statement": "Shape.plot of a box in two dimensions draws four lines that together cover exactly the boundary of the region described by contains, also with a basis. In three dimensions it draws the twelve edges, each once, and fills the six faces, each once. Circle.plot draws the circle of all boundary points. Donut.plot draws two closed lines whose points are boundary points of the ring described by contains, one with the inner and one with the outer radius. Plotting a box in one dimension works as well.", "quantifier": "All sizes that are not negative, all positions, all bases of linearly independent vectors, all radii.", "why_tests_cant": "The tests only check that plot does not raise. A wrong vertex number or a forgotten position shows up only in the picture.", "anchors": ["lattpy/shape.py:Shape.plot", "lattpy/shape.py:Shape._build", "lattpy/shape.py:Circle.plot", "lattpy/shape.py:Donut.plot"]}
{"id": "C113", "title": "interpolate_to_grid puts every value at its grid point and the grid covers the points", "statement": "interpolate_to_grid returns three tables with num[1] rows and num[0] columns. The first two hold the coordinates of the grid points: the columns are evenly spaced from the smallest x coordinate minus the offset to the largest plus the offset, the rows likewise in y. The third table has at every place the interpolated value of exactly this grid point, and the fill value where there is none. A grid point that is one of the given points has the given value.", "quantifier": "All lists of points and values, all numbers of grid lines, all offsets and fill values, every interpolation method.", "why_tests_cant": "There is no test of this function. Rows and columns exchanged go unnoticed on square grids of symmetric data.", "anchors": ["lattpy/plotting.py:interpolate_to_grid"]}
{"id": "C114", "title": "check_points and build_indices leave the given shape unchanged", "statement": "The object given as shape holds the same numbers after check_points and build_indices, whether they return or raise. A second call with the same object gives the same result.", "quantifier": "All structures, points, sizes, positions, tolerances and callbacks; lists and arrays, integers and floats, with and without relative or primitive.", "why_tests_cant": "The tests pass fresh lists and tuples. Only an array of floats used twice shows the difference.", "anchors": ["lattpy/structure.py:LatticeStructure.check_points", "lattpy/structure.py:LatticeStructure.build_indices"]}
{"id": "C115", "title": "A copied lattice is equal to the original and independent of it", "statement": "copy() of a lattice (also of a structure) has the same vectors, positions, connections, analysis, data and shape, and for every atom an atom object of its own with the same index, name, weight and parameters; atoms at several positions that are one object are one object in the copy. The copy has the same text and is equal to the original wherever == is defined. Whatever is done with the copy or its atoms (calls, also calls that raise, setting and deleting parameters) afterwards leaves the original as it is, and vice versa, as long as no atom of the one is added to the other. The copy behaves like the original: the same calls (configuration, build, set_periodic, append, extend, repeat, changes of atom parameters, naming atoms by number or name) raise the same exceptions, or none, on both and end in the same vectors, data and shape and atoms with the same numbers, names, weights and parameters.", "quantifier": "all lattices a program can make, including copies of copies, of every dimension; all histories with either lattice; all ways of printing numbers", "why_tests_cant": "Independence is a statement about all later histories of two objects; the tests only append a copy to its original.", "anchors": ["lattpy/lattice.py:Lattice.copy", "lattpy/structure.py:LatticeStructure.copy", "lattpy/data.py:LatticeData.copy", "lattpy/atom.py:Atom"]}
{"id": "C116", "title": "The order in which atoms and connections are configured does not matter", "statement": "Configuration calls that ask for the same atoms and connections give the same unit cell in any order: calls of add_connection may be permuted, repeated and made with or without analyze as long as they do not ask for different numbers for the same pair; in general the last call that names a pair decides. The neighbours found by a following analyze are the same.", "quantifier": "all structures, all lists of add_connection calls by number, name or object, all orders; add_atom and add_connection in any order", "why_tests_cant": "There are infinitely many call sequences and all their permutations.", "anchors": ["lattpy/structure.py:LatticeStructure.add_connection", "lattpy/structure.py:LatticeStructure.add_atom", "lattpy/structure.py:LatticeStructure.analyze"]}
{"id": "C117", "title": "Lattices built from the same structure agree where they overlap", "statement": "If two finite lattices are built from the same configured structure, with any two shapes, positions and callbacks, then two sites that belong to both lattices are neighbours in the one exactly if they are neighbours in the other: the connections of the sites do not depend on the rest of the sample.", "quantifier": "For every configured structure, every two successful builds and every pair of common sites. Proved without further conditions for the preset lattices with one shell (and every structure whose connections are those between nearest sites) and for chains with up to 255 shells; for all other structures under the conditions that the tables are padded, hold at most 256 distances and all connected pairs are among the sites requested from the tree (without these it fails).", "why_tests_cant": "The claim relates all pairs of samples of all shapes; tests build a few shapes and never compare two of them.", "anchors": ["lattpy/lattice.py:Lattice.build", "lattpy/lattice.py:Lattice.neighbors", "lattpy/structure.py:LatticeStructure.compute_neighbors"]}
{"id": "C118", "title": "A region moved by a lattice vector gives the moved lattice", "statement": "Building the same region once at a place and once moved by a lattice vector gives the same finite lattice moved by that vector: the sites are the moved sites in the same order, and the site with number i has the same neighbours in both.", "quantifier": "all structures, lattice vectors, regions (boxes, circles) and positions", "why_tests_cant": "Tests build at the origin; whether the search window, the tolerance and the index type behave the same at every other place is a statement about all lattice vectors.", "anchors": ["lattpy/structure.py:LatticeStructure.build_indices", "lattpy/structure.py:LatticeStructure.build_translation_vectors", "lattpy/lattice.py:Lattice.build", "lattpy/shape.py:Shape.contains"]}
{"id": "C119", "title": "Finite lattices do not depend on the unit of length", "statement": "Let all lengths of a structure (basis vectors and atom positions) be multiplied by s > 0, and let the box passed to build (size and position) be multiplied by s too. Then the built lattice has the same sites with the same indices in the same order, all positions are multiplied by s, and every site has the same neighbours. In particular, chains, square, cubic and hypercubic lattices with one shell of neighbours, built in a box of whole cells, are the same lattice for any two lattice constants.", "quantifier": "all pairs of configured structures related by a scale, all boxes whose searched windows have the right size at both scales, all lattice constants of the presets above the tolerance of check_points (hypercubic) or the rounding of distances (hexagonal, clean boxes), all numbers and positions of cells, all sessions and nearest neighbour oracles", "why_tests_cant": "Tests fix the lattice constant to one or two values. Absolute tolerances (1e-3 in check_points, 6 decimals of the distances) break the scale invariance in ways that only appear for some constants.", "anchors": ["lattpy/lattice.py:Lattice.build", "lattpy/structure.py:LatticeStructure.build_indices", "lattpy/structure.py:LatticeStructure.check_points", "lattpy/structure.py:LatticeStructure.get_neighbors"]}
{"id": "C120", "title": "A finite lattice is a part of the infinite structure", "statement": "In a finite lattice built from a structure with connections between nearest sites, the neighbours of a site are exactly those of its neighbours in the infinite structure (get_neighbors of the structure for the index of the site) that belong to the lattice. A site has at most as many neighbours as in the infinite structure, and has that many if and only if all of them belong to the lattice. For the presets with one shell this number is 2 for the chain, 4 for the square, 6 for the cubic and the hexagonal and 3 for the honeycomb lattice. For chains with several shells the neighbours of any shell are compared in the same way, and the level numbers of both agree.", "quantifier": "all configured structures whose connections are those between nearest sites, in particular the presets with any resolved lattice constant and dimension, all shapes, positions and callbacks, all sites, all nearest neighbour oracles; chains with any number of shells up to 255", "why_tests_cant": "Tests compare the neighbours of some sites of one lattice with expected lists. The claim relates two independent code paths (the cached neighbours of the unit cell and the search among the built sites) for every region and every callback.", "anchors": ["lattpy/lattice.py:Lattice.build", "lattpy/lattice.py:Lattice.neighbors", "lattpy/structure.py:LatticeStructure.get_neighbors", "lattpy/structure.py:LatticeStructure.compute_neighbors"]}
{"id": "C121", "title": "Only the last periodic setting counts", "statement": "Periodic boundary conditions can be changed at will: after any sequence of set_periodic calls on a built lattice, also calls that raise, a further set_periodic(p) has the same result or exception and leaves the same neighbours, distances, periodic marks and sites as on the lattice fresh from build(), and set_periodic(False) restores the neighbours of build(). build(periodic=p) is build() followed by set_periodic(p).", "quantifier": "all configured structures with distinct sites, all shapes, all sequences of set_periodic arguments, all arguments of the last call", "why_tests_cant": "A test tries a few switches on a few lattices; the claim covers every sequence of switches, failed ones included, on every lattice.", "anchors": ["lattpy/lattice.py:Lattice.set_periodic", "lattpy/data.py:LatticeData.set_periodic", "lattpy/data.py:LatticeData.remove_periodic", "lattpy/lattice.py:Lattice.build"]}
{"id": "C122", "title": "A build does not depend on earlier builds", "statement": "Lattice.build depends only on the configured structure and its arguments: whatever was built, made periodic or failed before, it has the same result or exception and leaves the same sites, neighbours and structure; if it succeeds, also the same shape, position and kind of axes, and the same periodic axes if there are periodic neighbours.", "quantifier": "all pairs of lattices with the same structure in any two states, all arguments of build", "why_tests_cant": "State left over from an earlier call shows only for particular sequences of calls; the claim compares arbitrary states.", "anchors": ["lattpy/lattice.py:Lattice.build", "lattpy/lattice.py:Lattice.set_periodic", "lattpy/data.py:LatticeData.reset", "lattpy/lattice.py:Lattice._update_shape"]}
{"id": "C123", "title": "Configuring the structure further does not change a lattice that has been built", "statement": "After a lattice has been built, calls of add_atom, add_connection, add_connections and analyze, whether they succeed or raise, change nothing about the finite lattice until the next build: number of sites, shape, position, periodic axes, positions, atoms, neighbours of every level, neighbour pairs, adjacency matrix, super-index lookups, limits, centre, minimum distances, number of cells and volume stay the same, check_neighbors gives the same answers, and set_periodic has the same effect as before.", "quantifier": "all histories of configuration calls, builds and set_periodic calls, all later configuration calls, all sites", "why_tests_cant": "Tests configure first and build afterwards; the mixture of old data with a new configuration needs a particular order of calls.", "anchors": ["lattpy/structure.py:LatticeStructure.add_atom", "lattpy/structure.py:LatticeStructure.add_connections", "lattpy/lattice.py:Lattice.check_neighbors", "lattpy/lattice.py:Lattice.set_periodic"]}
{"id": "C124", "title": "The translations are symmetries of a periodic lattice", "statement": "Take a lattice whose data are all sites of a block of whole unit cells, made by one build or by joining blocks with append, and make it periodic along some axes with at least three cells each. Moving every site by the same number of cells along these axes, counted around the block, is a permutation of the sites which maps the neighbours reported for each site exactly to the neighbours reported for the moved site. So no site is distinguished by being at the boundary or at a joint, and all copies of an atom have the same number of neighbours.", "quantifier": "For all lattices with nearest neighbours only, all blocks of whole cells and joins of such blocks, all sets of periodic axes with at least three cells, all integer translations along these axes, all sites.", "why_tests_cant": "The permutation has to work for all sites and all translations of blocks of any size and any lattice; tests look at the neighbours of a few sites of one small block, typically not at edges and corners at the same time.", "anchors": ["lattpy/lattice.py:Lattice.set_periodic", "lattpy/lattice.py:Lattice.append", "lattpy/lattice.py:Lattice.neighbors", "lattpy/data.py:LatticeData.set_periodic"]}
{"id": "C125", "title": "The Hamiltonian of a periodic lattice commutes with the translations", "statement": "Build a lattice of whole cells, make it periodic, and fill a matrix from dmap() with one value per kind of site and one per neighbour shell, as in the README. The entry between two sites equals the entry between the two sites moved by the same number of cells around the periodic axes. (So the matrix commutes with the translations, which is what makes its eigenstates Bloch waves.)", "quantifier": "For all lattices with nearest neighbours only and at most 128 atoms in the cell, all blocks of whole cells with at least three cells along the periodic axes, all documented assignments of values (numbers or matrices), all translations along the periodic axes and all pairs of sites.", "why_tests_cant": "Invariance is a statement about all pairs of sites and all translations; tests compare a handful of matrix entries of a short chain.", "anchors": ["lattpy/data.py:DataMap.build_csr", "lattpy/data.py:DataMap.onsite", "lattpy/data.py:DataMap.hopping", "lattpy/lattice.py:Lattice.dmap", "lattpy/lattice.py:Lattice.set_periodic"]}
{"id": "C126", "title": "fourier_weights gives the band structure of the periodic lattice", "statement": "fourier_weights is computed from the neighbours in the infinite lattice; the Hamiltonian built from dmap() uses the neighbours stored for the finite periodic lattice. They agree: for a wave vector which fits into the block, the sum of the plane wave over the stored neighbours of a site is fourier_weights(k, alpha) times the wave at the site, and the matrix filled with one value per kind of site and one for the links multiplies the plane wave by site value + link value * fourier_weights(k, alpha). For graphene this gives the 2 x 2 Bloch Hamiltonian with the honeycomb weight and its conjugate off the diagonal.", "quantifier": "For all lattices with nearest neighbours only, all blocks of whole cells with at least three cells along each axis, all axes periodic, all wave vectors commensurate with the block, all sites; for the matrix at most 128 atoms in the cell and all documented assignments of complex values.", "why_tests_cant": "The two results come from different code paths and have to agree for all wave vectors and block sizes; tests look at the weights of single wave vectors and at small open lattices.", "anchors": ["lattpy/structure.py:LatticeStructure.fourier_weights", "lattpy/lattice.py:Lattice.set_periodic", "lattpy/lattice.py:Lattice.neighbors", "lattpy/data.py:DataMap.build_csr"]}
{"id": "C127", "title": "Neighbours lie on different sublattices, and energies come in pairs", "statement": "In the hypercubic lattices with nearest neighbours every neighbour of a site has the other cell parity, and in the honeycomb lattice and graphene the other atom, for every finite lattice built from them. With periodic boundaries this stays true as long as the colouring repeats after a period; for the honeycomb lattice and graphene it does for every shape and after every sequence of set_periodic calls, also failing ones (atoms without a connection never become neighbours); for rings and for finite_hypercubic exactly if all periodic axes have an even number of cells (otherwise no colouring exists). If the neighbours always have the other colour, the matrix built from dmap() without onsite values has no entries between sites of the same colour, and multiplying an eigenvector by the signs of the colours gives an eigenvector with the opposite energy.", "quantifier": "For all lattice constants of at least 1e-5, all shapes, positions and callbacks of build; all sequences of set_periodic calls for the honeycomb lattice; rings: all numbers of sites from three on; finite_hypercubic: all dimensions and sizes, all sets of periodic axes with at least two cells; matrix: all histories of calls with at most 256 distances, all documented assignments of complex values without onsite values, all eigenvectors.", "why_tests_cant": "A wrong neighbour at the edge of one shape or across one boundary breaks the pairing; tests look at a few small lattices and not at the spectrum.", "anchors": ["lattpy/lattice.py:Lattice.build", "lattpy/lattice.py:Lattice.set_periodic", "lattpy/lattice.py:Lattice.neighbors", "lattpy/data.py:DataMap.build_csr"]}
{"id": "C128", "title": "finite_hypercubic is connected, and hops between neighbours measure the distance along the axes", "statement": "From every site of the lattice built by finite_hypercubic every other site is reached by going from neighbour to neighbour. The smallest number of hops is the sum over the axes of the distances of the cells, where the shorter way around is taken along a periodic axis. In every lattice with nearest neighbours only, sites n hops apart are at most n neighbour distances apart. For other shapes a lattice can have several parts.", "quantifier": "For all dimensions, all sizes with at least one cell along each axis, all sets of periodic axes with at least two cells each (or none), all pairs of sites and all paths, with the default lattice constant.", "why_tests_cant": "A single missing or additional neighbour changes the lengths of paths; there are infinitely many paths, and tests look at the neighbours of a few sites.", "anchors": ["lattpy/__init__.py:finite_hypercubic", "lattpy/lattice.py:Lattice.build", "lattpy/lattice.py:Lattice.set_periodic", "lattpy/lattice.py:Lattice.neighbors"]}
{"id": "C129", "title": "All energies of the matrix filled from dmap() lie within the sum of the hoppings around the onsite value", "statement": "Every eigenvalue of the matrix filled from dmap() lies around the onsite value of some site, at most as far away as the magnitudes of the hoppings to the neighbours of this site add up to. With one onsite value eps and one hopping t to at most z nearest neighbours all energies lie within z*|t| around eps. If every site has z neighbours, the constant vector has the energy eps + z*t. For graphene with periodic boundaries both eps + 3t and eps - 3t are energies and none lies further away.", "quantifier": "For all reachable structures, all histories of build, set_periodic and the other calls of the model, all assigned complex values and all eigenvectors.", "why_tests_cant": "The statement is about the spectrum of matrices of every size; a link stored twice or to a wrong site shows up only in some rows.", "anchors": ["lattpy/data.py:LatticeData.map", "lattpy/data.py:DataMap.build_csr", "lattpy/lattice.py:Lattice.neighbors", "lattpy/lattice.py:Lattice.dmap", "lattpy/lattice.py:Lattice.set_periodic"]}
{"id": "C130", "title": "The matrix filled from dmap() is symmetric, and its energies are real for real values", "statement": "If values are assigned to the sites and links of a lattice through dmap(), the matrix has the same entry from site i to site j as from j to i, also across periodic boundaries. With real values it is hermitian and all its eigenvalues are real. Lattices joined by append with more than one shell can lose one direction of a link.", "quantifier": "For all structures whose connections are those between nearest sites (all presets with one shell), all shapes, all periodic axes with at least three cells on blocks of whole cells; for all chains with up to 255 shells; all assigned complex values and all eigenvectors.", "why_tests_cant": "Symmetry is a statement about all pairs of sites of lattices of every shape; one direction of a link missing at a boundary is seen only by a test which looks at this pair.", "anchors": ["lattpy/data.py:LatticeData.map", "lattpy/data.py:DataMap.build_csr", "lattpy/lattice.py:Lattice.build", "lattpy/lattice.py:Lattice.dmap", "lattpy/lattice.py:Lattice.set_periodic", "lattpy/lattice.py:Lattice.append"]}
{"id": "C131", "title": "Blocks of whole cells are connected", "statement": "If the atoms of one unit cell are connected to each other by nearest-neighbour links inside the cell, and along every axis some atom has a neighbour in the next cell, then every lattice built from a block of whole cells is connected: every site can be reached from every other one by steps from a site to one of its neighbors(). It stays connected when axes of at least three cells are made periodic with set_periodic and when two blocks of the same cross section are joined with append.", "quantifier": "All structures whose connections are those between nearest sites, all blocks of whole cells of any size and dimension, all lists of periodic axes, all joined pairs of blocks along any axis and on either side.", "why_tests_cant": "Connectivity is a statement about all pairs of sites and walks of any length, for every size of the block; a test checks a few small lattices.", "anchors": ["lattpy/lattice.py:Lattice.build", "lattpy/lattice.py:Lattice.neighbors", "lattpy/lattice.py:Lattice.set_periodic", "lattpy/lattice.py:Lattice.append", "lattpy/__init__.py:graphene"]}
{"id": "C132", "title": "The energies at the ends of the spectrum of a periodic lattice are not degenerate", "statement": "Fill the matrix of a periodic lattice of whole cells from dmap() with the same onsite value eps on all atoms and a hopping t different from zero between nearest neighbours. If the cells are joined to each other and neighbors() lists z sites for every site, then the vectors with the energy eps + z * t are exactly the non-zero constant ones: the uniform state is an eigenstate and it is not degenerate. If neighbours always lie on different ones of two sublattices, the vectors with the energy eps - z * t are exactly those with one non-zero value on one sublattice and its negative on the other.", "quantifier": "All structures whose connections are those between nearest sites, all blocks of whole cells, all lists of periodic axes, all complex values eps and t, all vectors.", "why_tests_cant": "The non-degeneracy is a statement about all vectors on lattices of every size; a numerical test diagonalises a few matrices with a tolerance.", "anchors": ["lattpy/lattice.py:Lattice.dmap", "lattpy/lattice.py:Lattice.set_periodic", "lattpy/lattice.py:Lattice.neighbors", "lattpy/data.py:DataMap.onsite", "lattpy/data.py:DataMap.hopping", "lattpy/data.py:DataMap.build_csr"]}

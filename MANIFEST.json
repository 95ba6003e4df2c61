{
 "claims": [
  {
   "property": "C01",
   "status": "proved",
   "theorems": [
    "Lattpy.C01_construction",
    "Lattpy.C01_coordinate_round_trip"
   ],
   "note": "Proved over any ordered field; construction fails exactly for singular bases."
  },
  {
   "property": "C02",
   "status": "proved",
   "theorems": [
    "Lattpy.C02_translate_action"
   ],
   "note": "Proved."
  },
  {
   "property": "C03",
   "status": "proved",
   "theorems": [
    "Lattpy.C03_itranslate",
    "Lattpy.C03_itranslate_translate"
   ],
   "note": "Proved, existence and uniqueness."
  },
  {
   "property": "C04",
   "status": "proved",
   "theorems": [
    "Lattpy.C04_cell_volume_eq_det",
    "Lattpy.C04_cell_volume_pos",
    "Lattpy.C04_cell_volume_unimodular"
   ],
   "note": "Proved for all four dimension branches."
  },
  {
   "property": "C05",
   "status": "partial",
   "theorems": [
    "Lattpy.C05_cell_size_partial",
    "Lattpy.C05_cell_size_fails"
   ],
   "note": "Proved for axes on which some basis vector has a non-negative component; counterexample: the 1D vector -1 (size 0 instead of 1)."
  },
  {
   "property": "C06",
   "status": "proved",
   "theorems": [
    "Lattpy.C06_reciprocal_dual",
    "Lattpy.C06_unchecked",
    "Lattpy.C06_reciprocal_lattice"
   ],
   "note": "Proved over the reals for dimensions 1 to 3 and every tolerance 0 <= tol < 4 pi."
  },
  {
   "property": "C07",
   "status": "proved",
   "theorems": [
    "Lattpy.C07_reciprocal_involutive"
   ],
   "note": "Proved."
  },
  {
   "property": "C08",
   "status": "partial",
   "theorems": [
    "Lattpy.C08_is_reciprocal_diagonal_partial",
    "Lattpy.C08_is_reciprocal_complete_partial",
    "Lattpy.C08_is_reciprocal_fails"
   ],
   "note": "Off-diagonal products are not checked by the code: counterexample; proved that duals are accepted and what exactly is checked."
  },
  {
   "property": "C09",
   "status": "proved",
   "theorems": [
    "Lattpy.C09_superindex_then_index",
    "Lattpy.C09_index_then_superindex",
    "Lattpy.C09_superindex_monotone"
   ],
   "note": "Proved for all integers and all positive shapes."
  },
  {
   "property": "C10",
   "status": "partial",
   "theorems": [
    "Lattpy.C10_neighbor_cells_structure_partial",
    "Lattpy.C10_neighbor_cells_nearest_partial",
    "Lattpy.C10_neighbor_cells_fails"
   ],
   "note": "Fails for rectangular cells with sides 2 and 1 (counterexample). Proved: symmetry, origin flag, no duplicates, one common distance for every level; nearest cells for bases of equally long vectors at level 0."
  },
  {
   "property": "C11",
   "status": "proved",
   "theorems": [
    "Lattpy.C11_interweave",
    "Lattpy.C11_interweave_empty"
   ],
   "note": "Proved, including the error for no arrays."
  },
  {
   "property": "C12",
   "status": "proved",
   "theorems": [
    "Lattpy.C12_vindices_box",
    "Lattpy.C12_vindices_length",
    "Lattpy.C12_vindices_negative"
   ],
   "note": "Proved for explicit wide integer types; negative spans give the empty result."
  },
  {
   "property": "C13",
   "status": "partial",
   "theorems": [
    "Lattpy.C13_vindices_default_partial",
    "Lattpy.C13_vindices_default_nonneg_partial",
    "Lattpy.C13_vindices_default_fails"
   ],
   "note": "Overflow counterexample at limits (-65, 65); proved when the selected type holds the values."
  },
  {
   "property": "C14",
   "status": "proved",
   "theorems": [
    "Lattpy.C14_distance_metric",
    "Lattpy.C14_distance_rounding",
    "Lattpy.C14_distance_ties",
    "Lattpy.C14_distances_rowwise"
   ],
   "note": "Proved against Mathlib's Euclidean metric; rounding including ties."
  },
  {
   "property": "C15",
   "status": "proved",
   "theorems": [
    "Lattpy.C15_compute_vectors_1d",
    "Lattpy.C15_compute_vectors_2d",
    "Lattpy.C15_compute_vectors_3d"
   ],
   "note": "Proved for 1, 2 and 3 dimensions without rounding (decimals=0), in 3D relative to the existence of a cell with these parameters and non-collinear a, b."
  },
  {
   "property": "C16",
   "status": "partial",
   "theorems": [
    "Lattpy.C16_rotation_matrices",
    "Lattpy.C16_right_handed",
    "Lattpy.C16_rotate_angle_partial",
    "Lattpy.C16_rotate2d_sense_fails",
    "Lattpy.C16_rotate_isometry",
    "Lattpy.C16_rotate3d_axis_partial",
    "Lattpy.C16_rotate3d_axis_fails"
   ],
   "note": "Matrices (orthogonal, right-handed, additive, fixing their axis) and isometry proved; the angle and its unit proved for rotate2d and for rotate3d about y and z. Two counterexamples: rotate3d about x uses the z matrix, and rotate2d multiplies the point from the left, so it turns against the sense of the z-rotation matrix."
  },
  {
   "property": "C17",
   "status": "proved",
   "theorems": [
    "Lattpy.C17_query_neighbors"
   ],
   "note": "Proved for every nearest-neighbour oracle meeting the cKDTree contract (k >= 2). KDTree.query with k = 1 and without include_zero raises (C78_default_fails); the library never calls it so."
  },
  {
   "property": "C18",
   "status": "partial",
   "theorems": [
    "Lattpy.C18_check_partial",
    "Lattpy.C18_limits",
    "Lattpy.C18_vertices",
    "Lattpy.C18_size_fails"
   ],
   "note": "limits proved; the vertices in one dimension proved to be the points halfway to the other points; check proved up to ties of the nearest point query; size subtracts rows of the wrong axis: counterexample."
  },
  {
   "property": "C19",
   "status": "partial",
   "theorems": [
    "Lattpy.C19_lookup_table_lossless_partial",
    "Lattpy.C19_lookup_table_fails"
   ],
   "note": "Lossless for at most 2^bits distinct values; counterexample with 257 values and the default 8-bit index type."
  },
  {
   "property": "C20",
   "status": "partial",
   "theorems": [
    "Lattpy.C20_min_dtype_capacity",
    "Lattpy.C20_min_dtype_minimal_unsigned",
    "Lattpy.C20_min_dtype_minimal_signed_partial",
    "Lattpy.C20_min_dtype_minimal_fails"
   ],
   "note": "Capacity proved for all arrays within 63 bit, minimality proved in unsigned mode; in signed mode minimality only if the largest magnitude is attained by a non-negative entry, counterexample [-128]."
  },
  {
   "property": "C21",
   "status": "proved",
   "theorems": [
    "Lattpy.C21_chain_open",
    "Lattpy.C21_chain_cycle",
    "Lattpy.C21_chain_cycle_empty"
   ],
   "note": "Proved, including the error for the empty cyclic chain."
  },
  {
   "property": "C22",
   "status": "partial",
   "theorems": [
    "Lattpy.C22_frmt_num",
    "Lattpy.C22_frmt_bytes",
    "Lattpy.C22_printed_partial",
    "Lattpy.C22_printed_fails"
   ],
   "note": "Scaling proved for every positive divisor; for the rounded number of the text the error bound and the lower bound proved, the upper bound only as <= div: C22_printed_fails gives 999.96 printed as 1000.0 and 1048575 bytes printed as 1024.0kiB. The digits of the number are not modelled."
  },
  {
   "property": "C23",
   "status": "partial",
   "theorems": [
    "Lattpy.C23_error_str_partial",
    "Lattpy.C23_error_str_base",
    "Lattpy.C23_message",
    "Lattpy.C23_hint_fails",
    "Lattpy.C23_error_str_fails"
   ],
   "note": "str works for the three classes passing a hint; raises ValueError for SiteOccupiedError and NoAtomsError."
  },
  {
   "property": "C24",
   "status": "partial",
   "theorems": [
    "Lattpy.C24_atom_equality_partial",
    "Lattpy.C24_atom_equals_name",
    "Lattpy.C24_atom_equality_fails",
    "Lattpy.C24_method_fails"
   ],
   "note": "Proved for atoms without parameters called name or is_identical. A parameter called name changes the result (C24_atom_equality_fails); a parameter called is_identical hides the method, so that the comparison raises a TypeError (C24_method_fails)."
  },
  {
   "property": "C25",
   "status": "partial",
   "theorems": [
    "Lattpy.C25_set_item",
    "Lattpy.C25_attribute_partial",
    "Lattpy.C25_attribute_fails",
    "Lattpy.C25_delete",
    "Lattpy.C25_iteration"
   ],
   "note": "Proved for all histories; attribute access only for keys not starting with an underscore (counterexample)."
  },
  {
   "property": "C26",
   "status": "partial",
   "theorems": [
    "Lattpy.C26_indices_distinct",
    "Lattpy.C26_copy_partial",
    "Lattpy.C26_copy_fails",
    "Lattpy.C26_lattice_copy_fails"
   ],
   "note": "Index freshness proved for all histories of constructor and copy calls; copying proved for atoms with radius and color and without parameters named like arguments or called copy; counterexamples otherwise (C26_copy_fails). Atoms made by Lattice.copy() repeat the index numbers (C26_lattice_copy_fails; C115)."
  },
  {
   "property": "C27",
   "status": "proved",
   "theorems": [
    "Lattpy.C27_contains_within_limits"
   ],
   "note": "Proved for all shapes (Qhull by contract)."
  },
  {
   "property": "C28",
   "status": "proved",
   "theorems": [
    "Lattpy.C28_box",
    "Lattpy.C28_basis_box",
    "Lattpy.C28_circle_donut",
    "Lattpy.C28_tolerance_monotone"
   ],
   "note": "Proved for all shapes."
  },
  {
   "property": "C29",
   "status": "partial",
   "theorems": [
    "Lattpy.C29_unit_cell_partial",
    "Lattpy.C29_add_atom_after_analyze_fails"
   ],
   "note": "For every history of add_atom/add_connection(s)/analyze calls (raising ones included): positions and num_base agree and positions are distinct; atoms agree too unless an add_atom raised AttributeError. Fails: add_atom after analyze raises AttributeError after having appended the atom."
  },
  {
   "property": "C30",
   "status": "proved",
   "theorems": [
    "Lattpy.C30_symmetric",
    "Lattpy.C30_add_connection",
    "Lattpy.C30_add_connection_names",
    "Lattpy.C30_add_connections",
    "Lattpy.C30_add_atom"
   ],
   "note": "For every reachable structure. add_connection by number (also negative, and out of range) and by name, add_connections, add_atom. Connection numbers are natural numbers (negative numbers and the 64 bit limit are not modelled)."
  },
  {
   "property": "C31",
   "status": "partial",
   "theorems": [
    "Lattpy.C31_get_alpha_name",
    "Lattpy.C31_get_atom",
    "Lattpy.C31_get_alpha_object_partial",
    "Lattpy.C31_same_name_fails"
   ],
   "note": "Names and numbers: proved. Atom objects: proved if no earlier atom of the cell has the same name and no parameter is called is_identical; fails otherwise (list.index uses ==, which compares names)."
  },
  {
   "property": "C32",
   "status": "partial",
   "theorems": [
    "Lattpy.C32_listed_sites",
    "Lattpy.C32_listed_once",
    "Lattpy.C32_levels",
    "Lattpy.C32_num_neighbors_partial",
    "Lattpy.C32_num_neighbors_fails"
   ],
   "note": "Listed sites are lattice sites at the stored (rounded) positive distance, listed once; the stored distances per pair are exactly the listed ones, ascending, at most connections[a][b] many. num_neighbors equals the number of listed sites up to 127; fails beyond (int8): a chain with 64 shells has num_neighbors -128."
  },
  {
   "property": "C33",
   "status": "proved",
   "theorems": [
    "Lattpy.C33_neighbors_symmetric",
    "Lattpy.C33_distances_symmetric"
   ],
   "note": "For every analysed reachable structure: site (n,b) is listed for a at x iff (-n,a) is listed for b at x, and the distances stored for (a,b) and (b,a) agree."
  },
  {
   "property": "C34",
   "status": "partial",
   "theorems": [
    "Lattpy.C34_window_partial",
    "Lattpy.C34_chain_partial",
    "Lattpy.C34_one_atom_partial",
    "Lattpy.C34_hypercubic_partial",
    "Lattpy.C34_window_fails"
   ],
   "note": "Proved for every one-dimensional lattice whose atoms lie within one cell, for one-atom lattices with moderately skewed basis and resolved distances (hypercubic lattices of any dimension as instance), and conditionally on the search window in general. Fails: rectangular lattice 1x10 with atoms (0,0),(1/2,5) lists only some of the nearest sites."
  },
  {
   "property": "C35",
   "status": "proved",
   "theorems": [
    "Lattpy.C35_neighbors_covariant",
    "Lattpy.C35_neighbor_positions",
    "Lattpy.C35_levels_increasing",
    "Lattpy.C35_errors"
   ],
   "note": "For every reachable structure, every cell, atom number (also negative) and distance number; error cases characterised; distances strictly increase with distidx."
  },
  {
   "property": "C36",
   "status": "partial",
   "theorems": [
    "Lattpy.C36_neighbor_vectors_partial",
    "Lattpy.C36_include_zero_fails"
   ],
   "note": "Proved for include_zero=False, and for include_zero=True if the atom is at the origin. Fails otherwise: the prepended vector is minus the position of the atom instead of zero."
  },
  {
   "property": "C37",
   "status": "proved",
   "theorems": [
    "Lattpy.C37_get_position",
    "Lattpy.C37_get_positions",
    "Lattpy.C37_positions_distinct",
    "Lattpy.C37_estimate_index"
   ],
   "note": "get_position(s) for all indices, error cases included; distinct indices with regular cells have distinct positions; estimate_index is exact for displacements below half a cell."
  },
  {
   "property": "C38",
   "status": "proved",
   "theorems": [
    "Lattpy.C38_roundtrip"
   ],
   "note": "Round trip for every reachable structure whose atom list is consistent with num_base (see C29); error cases included."
  },
  {
   "property": "C39",
   "status": "partial",
   "theorems": [
    "Lattpy.C39_chain_partial",
    "Lattpy.C39_small_fails",
    "Lattpy.C39_scaling_partial"
   ],
   "note": "Proved for chains with a >= 1e-6 and for every scaled structure when rounding to 6 decimals keeps the order of distances within the searched box at both scales. Fails: with lattice constant 1e-7 analyze finds no neighbours."
  },
  {
   "property": "C40",
   "status": "partial",
   "theorems": [
    "Lattpy.C40_region_partial",
    "Lattpy.C40_shear_fails",
    "Lattpy.C40_shifted_atom_fails",
    "Lattpy.C40_index_type_fails",
    "Lattpy.C40_negative_fails"
   ],
   "note": "build_indices (structure.py 977-1194) is modelled with the estimated search window, the index type of vindices and the filter. C40_region_partial: every site in the region is returned, for sizes and all shape objects, if the atoms have lattice coordinates in [0,2), the index type is wide enough, and per lattice coordinate either it grows along all Cartesian directions or the region is in the first orthant. Four proved counterexamples: sheared basis away from the origin, atom at a negative coordinate, int8 overflow of the cell counter for the box [-100,100], negative basis vector (ValueError)."
  },
  {
   "property": "C41",
   "status": "proved",
   "theorems": [
    "Lattpy.C41_sites",
    "Lattpy.C41_region",
    "Lattpy.C41_callback"
   ],
   "note": "C41_sites: indices and positions match row by row and (default index type) no index occurs twice; C41_region: all sites are in the region up to the tolerance; C41_callback: a callback keeps exactly the accepted rows, a mask of the wrong length raises IndexError, errors of the build are unchanged. For an explicitly given, too narrow index type indices can repeat (wrap-around), which the theorem excludes."
  },
  {
   "property": "C42",
   "status": "partial",
   "theorems": [
    "Lattpy.C42_box_partial",
    "Lattpy.C42_relative_partial",
    "Lattpy.C42_upper_fails",
    "Lattpy.C42_int_fails",
    "Lattpy.C42_dimension"
   ],
   "note": "C42_box_partial and C42_relative_partial give the exact accepted set of check_points for boxes: the tolerance acts at the lower end only. C42_upper_fails: for every structure, box and tolerance a point within the tolerance above the upper end is rejected. C42_int_fails: relative=True raises TypeError for integer sizes. Shape objects have the tolerance on both sides (C28)."
  },
  {
   "property": "C43",
   "status": "partial",
   "theorems": [
    "Lattpy.C43_cells_partial",
    "Lattpy.C43_unit_partial",
    "Lattpy.C43_constant_fails"
   ],
   "note": "C43_cells_partial gives the exact cells of the primitive build of a hypercubic lattice for every lattice constant a: 0 <= n_k <= min(size_k, size_k*a - 1/10); C43_unit_partial: for a = 1 exactly the requested cells. C43_constant_fails: 4 requested cells give 4, 2 and 5 cells for a = 1, 1/2 and 2."
  },
  {
   "property": "C44",
   "status": "partial",
   "theorems": [
    "Lattpy.C44_neighbors_partial",
    "Lattpy.C44_one_atom_partial",
    "Lattpy.C44_hypercubic_partial",
    "Lattpy.C44_truncated_fails"
   ],
   "note": "Soundness for all structures, sites and tie orders; completeness for a pair if the tree query of the site is not truncated before the other site (number of sites not farther away <= 1 + total number of raw neighbours) and the raw distances exceed 5e-6; full equivalence with the shells of the infinite lattice for one-atom lattices with complete analysis, in particular all hypercubic lattices. Counterexample: rectangular 1 x 10 lattice with two atoms, where the query limit hides a configured neighbour."
  },
  {
   "property": "C45",
   "status": "partial",
   "theorems": [
    "Lattpy.C45_rows",
    "Lattpy.C45_symmetric_partial",
    "Lattpy.C45_hypercubic_partial",
    "Lattpy.C45_asymmetric_fails",
    "Lattpy.C45_width"
   ],
   "note": "Irreflexivity, no repetition, sorted rows and padding proved for all structures and sites; no superfluous columns (C45_width); symmetry for pairs not truncated by the query and for all hypercubic lattices. Counterexample: same truncated query lists A for B but not B for A."
  },
  {
   "property": "C46",
   "status": "partial",
   "theorems": [
    "Lattpy.C46_set_get_partial",
    "Lattpy.C46_no_inf_fails",
    "Lattpy.C46_no_columns_fails"
   ],
   "note": "Proved when some distance is infinite (padding present) and there are at most 256 distinct distances; counterexamples: a table without an infinite entry loses the neighbours of the largest distance, and a table without columns raises ValueError."
  },
  {
   "property": "C47",
   "status": "partial",
   "theorems": [
    "Lattpy.C47_level_partition",
    "Lattpy.C47_periodic_partition",
    "Lattpy.C47_unique_once_partial",
    "Lattpy.C47_unique_loop_fails"
   ],
   "note": "Level and periodic partitions proved for all tables of equal shape; unique=True proved for symmetric tables without self-links; counterexample: a self-link is never reported."
  },
  {
   "property": "C48",
   "status": "partial",
   "theorems": [
    "Lattpy.C48_remove_induced_partial",
    "Lattpy.C48_remove_tables_partial",
    "Lattpy.C48_remove_out_of_range",
    "Lattpy.C48_remove_repeated_fails"
   ],
   "note": "Induced sub-lattice proved for every duplicate-free list of existing sites (order, indices, positions, neighbour rows, distances, and the padding number of the tables, which is the new number of sites); out of range raises IndexError and changes nothing; counterexample: a site listed twice shifts the numbering twice."
  },
  {
   "property": "C49",
   "status": "partial",
   "theorems": [
    "Lattpy.C49_remove_periodic_flags_partial",
    "Lattpy.C49_remove_flags_fails",
    "Lattpy.C49_change_after_remove_fails"
   ],
   "note": "remove does not delete the rows of the periodic tables; counterexamples for misattached flags and for changing the boundary afterwards (IndexError). Proved when there are no periodic neighbours."
  },
  {
   "property": "C50",
   "status": "proved",
   "theorems": [
    "Lattpy.C50_reorder_relabelling",
    "Lattpy.C50_sort_ordered"
   ],
   "note": "Proved for every permutation and every order argsort may give to ties."
  },
  {
   "property": "C51",
   "status": "proved",
   "theorems": [
    "Lattpy.C51_sort_neighbors"
   ],
   "note": "Proved for every order argsort may give to ties."
  },
  {
   "property": "C52",
   "status": "partial",
   "theorems": [
    "Lattpy.C52_set_periodic_partial",
    "Lattpy.C52_remove_periodic_noop",
    "Lattpy.C52_gap_fails",
    "Lattpy.C52_overflow_fails"
   ],
   "note": "Proved for rows whose regular neighbours are packed at the front with enough room; counterexamples: a gap in the row (a regular neighbour is overwritten), and a full row (one neighbour is dropped silently, two raise ValueError)."
  },
  {
   "property": "C53",
   "status": "partial",
   "theorems": [
    "Lattpy.C53_append_disjoint_union_partial",
    "Lattpy.C53_append_periodic_fails",
    "Lattpy.C53_append_no_inf_fails",
    "Lattpy.C53_append_modifies_argument_fails"
   ],
   "note": "Disjoint union proved (first part keeps, second part shifted, no links between). Periodic links are kept as ordinary neighbours, contrary to the claim (counterexample); tables without padding lose neighbours; the argument's own neighbour table is modified (counterexamples)."
  },
  {
   "property": "C54",
   "status": "partial",
   "theorems": [
    "Lattpy.C54_add_neighbor_partial",
    "Lattpy.C54_full_row_fails",
    "Lattpy.C54_level_fails"
   ],
   "note": "Proved for one neighbour at a stored distance and a row with a free slot; counterexamples: a full row drops the new neighbour silently, a distance between two levels is put at the next larger one instead of the closest."
  },
  {
   "property": "C55",
   "status": "partial",
   "theorems": [
    "Lattpy.C55_map_elements_partial",
    "Lattpy.C55_map_masks_partial",
    "Lattpy.C55_int8_fails"
   ],
   "note": "Proved for all equal-shape tables with atom numbers below 128 and every order argsort may give to ties (C55_map_elements_partial, C55_map_masks_partial); the code stores the atom numbers with 8 bits, C55_int8_fails: from 128 on a site becomes a link of the site to itself."
  },
  {
   "property": "C56",
   "status": "proved",
   "theorems": [
    "Lattpy.C56_block_layout",
    "Lattpy.C56_lattice_map_layout",
    "Lattpy.C56_csr_entries"
   ],
   "note": "Proved for every map with ascending rows covering 0..n-1, in particular every map of a lattice; SciPy's csr/bsr semantics (summing duplicates) are trusted."
  },
  {
   "property": "C57",
   "status": "partial",
   "theorems": [
    "Lattpy.C57_map_current_partial",
    "Lattpy.C57_stale_map_fails",
    "Lattpy.C57_lattice"
   ],
   "note": "Counterexamples: remove, set_periodic, add_neighbors and sort after a query keep the old map. Proved for histories of set, append and queries. C57_lattice: Lattice.dmap raises IndexError before a build, otherwise returns a map that all further calls return too."
  },
  {
   "property": "C58",
   "status": "proved",
   "theorems": [
    "Lattpy.C58_find_sites",
    "Lattpy.C58_find_outer_sites"
   ],
   "note": "Proved for all limits not longer than the dimension, with and without invert, and for the error case of no sites."
  },
  {
   "property": "C59",
   "status": "partial",
   "theorems": [
    "Lattpy.C59_neighbors_partial",
    "Lattpy.C59_padded_partial",
    "Lattpy.C59_unpadded_fails",
    "Lattpy.C59_hypercubic_partial",
    "Lattpy.C59_hypercubic_builds_partial",
    "Lattpy.C59_nearest_partial",
    "Lattpy.C59_two_atoms_fails",
    "Lattpy.C59_no_links_fails",
    "Lattpy.C59_nearest_only_partial",
    "Lattpy.C59_nearest_only_builds_partial"
   ],
   "note": "C59_neighbors_partial composes build_indices, the tree query, the filter, the table and the accessor for all structures and arguments without min_neighbors and periodic axes: neighbours exact (up to the truncated query of C44) if the table is padded. C59_padded_partial: padding is present if all pairs within the search radius are connected. Unconditional for hypercubic lattices of every dimension: C59_hypercubic_partial (every number of shells up to 255 without a further shell a tenth above), C59_hypercubic_builds_partial (the build does succeed), C59_nearest_partial (neighbours are the cells differing by one unit vector). C59_unpadded_fails: without padding every pair at the largest distance is lost; C59_two_atoms_fails (concrete chain of two-atom cells) and C59_no_links_fails (build raises ValueError) are concrete witnesses. C59_nearest_only_partial and C59_nearest_only_builds_partial: the neighbours are exact, without a padding hypothesis, for every structure whose links join sites at one distance with a gap of a factor of the square root of two to all other sites, and the build succeeds if a site is kept (used for the presets in C108)."
  },
  {
   "property": "C60",
   "status": "partial",
   "theorems": [
    "Lattpy.C60_induced_partial",
    "Lattpy.C60_isolated_partial",
    "Lattpy.C60_single_pass_fails",
    "Lattpy.C60_unpadded_fails"
   ],
   "note": "Proved for padded tables: the removed sites are exactly those of the full build with fewer than k neighbours, the rest is the induced sub-lattice with order, indices and positions kept; every site has at least k neighbours for k <= 1 on symmetric lattices. Counterexamples for the claim itself: one pass only (5-site chain, k = 2), and a table left without padding (sites 0, 1, 3, k = 1). See C64_min_neighbors_fails for min_neighbors with periodic boundaries."
  },
  {
   "property": "C61",
   "status": "partial",
   "theorems": [
    "Lattpy.C61_index",
    "Lattpy.C61_position_partial",
    "Lattpy.C61_unbuilt_fails",
    "Lattpy.C61_close_sites_fails"
   ],
   "note": "C61_index: after every history of calls (no explicit index dtype) superindex_from_index inverts the index table exactly. C61_position_partial: for every lattice with data the exact answer of superindex_from_pos (first site within atol in all coordinates), which inverts the positions if the sites are at least atol apart. Counterexamples: an unbuilt 1-D lattice answers site 0 for every position; a chain with lattice constant 5e-5 (below the default atol)."
  },
  {
   "property": "C62",
   "status": "partial",
   "theorems": [
    "Lattpy.C62_check_neighbors_partial",
    "Lattpy.C62_few_distances_partial",
    "Lattpy.C62_one_atom_partial",
    "Lattpy.C62_two_distances_fails"
   ],
   "note": "C62_check_neighbors_partial: exact meaning for all consistent tables (first matching level below the largest number of connections; complete if there are not more levels than that). C62_few_distances_partial and C62_one_atom_partial: the claim itself for built lattices with at most that many configured distances, in particular for one atom per cell. Counterexample C62_two_distances_fails: two-atom chain of 5 sites, check_neighbors(0, 2) is None for a neighbour."
  },
  {
   "property": "C63",
   "status": "partial",
   "theorems": [
    "Lattpy.C63_pairs",
    "Lattpy.C63_adjacency_partial",
    "Lattpy.C63_shape_fails",
    "Lattpy.C63_no_neighbors_fails",
    "Lattpy.C63_int8_fails"
   ],
   "note": "C63_pairs: neighbor_pairs, all and unique, agrees with the neighbour lists per site and level for all consistent tables. C63_adjacency_partial: shape, entries and symmetry of the adjacency matrix, N x N if the last site has a neighbour, at most 127 levels. Counterexamples: isolated last site (2 x 2 for 3 sites), no neighbours at all (ValueError), int8 overflow for 128 levels."
  },
  {
   "property": "C64",
   "status": "partial",
   "theorems": [
    "Lattpy.C64_min_neighbors_fails",
    "Lattpy.C64_level_fails",
    "Lattpy.C64_overflow_fails",
    "Lattpy.Lattice.C64_symmetric_partial",
    "Lattpy.Lattice.C64_not_regular",
    "Lattpy.Lattice.C64_complete_partial",
    "Lattpy.Lattice.C64_set_periodic_partial",
    "Lattpy.C64_ring_partial",
    "Lattpy.C64_small_fails",
    "Lattpy.C64_sound",
    "Lattpy.C64_ring_levels_partial",
    "Lattpy.Lattice.C64_neighbors_partial",
    "Lattpy.Lattice.C64_no_room"
   ],
   "note": "Search and storage of periodic neighbours, for all lattices. C64_not_regular: a periodic neighbour is never a regular one and is listed once. C64_symmetric_partial / C64_set_periodic_partial: translation and distance are right, the pair is stored from both sides with opposite translations, regular neighbours are unchanged, provided no regular neighbour pair is also connected by a translation, the rows have room and the distances are stored. C64_neighbors_partial: the neighbour sets (not translations) are right without the first of these conditions. C64_no_room: ValueError if two or more new neighbours of a site do not fit. C64_complete_partial: all connections across the boundary that the query size does not cut off are found. C64_ring_partial: a chain with nb shells and more than 2 nb sites becomes a ring with exactly 2 nb neighbours per site. C64_small_fails: on a chain of two sites with two shells a wrong distance is stored, because regular neighbours are removed from one of four parallel lists only. C64_sound: after any history and whatever the outcome of set_periodic (also when it raises half way) no regular neighbour is added, regular neighbours keep their distance level, and every periodic neighbour is connected by one of the translations of the requested axes. Further counterexamples, run over the rationals: C64_min_neighbors_fails (5x5 grid without corners), C64_level_fails (distance level on short rings), C64_overflow_fails (ValueError). C64_ring_levels_partial: on a ring with more than 2 nb sites the neighbours of every single shell are the two sites that many steps away."
  },
  {
   "property": "C65",
   "status": "partial",
   "theorems": [
    "Lattpy.Lattice.C65_modes_agree",
    "Lattpy.Lattice.C65_translations_partial",
    "Lattpy.Lattice.C65_planar",
    "Lattpy.Lattice.C65_errors",
    "Lattpy.Lattice.C65_diagonal_fails",
    "Lattpy.Lattice.C65_oblique_fails"
   ],
   "note": "Proved for primitive translations and for orthogonal lattices in either mode: each period and each sum of two periods is listed up to sign, differences if one of the axes is the first, nothing else is listed; complete in one and two dimensions (C65_planar). Counterexamples: a missing diagonal in three dimensions and an oblique lattice where a listed vector is no combination of the periods."
  },
  {
   "property": "C66",
   "status": "partial",
   "theorems": [
    "Lattpy.Lattice.C66_defined",
    "Lattpy.Lattice.C66_errors",
    "Lattpy.Lattice.C66_minimum",
    "Lattpy.Lattice.C66_symmetric",
    "Lattpy.Lattice.C66_ring_partial",
    "Lattpy.Lattice.C66_chain",
    "Lattpy.Lattice.C66_ring_fails"
   ],
   "note": "Proved for all lattices: the value is the least of the direct distance and the distances to the listed images, symmetric, at most the direct distance, zero for i = j; defined whenever the axes exist; errors covered. The ring distance in one dimension is proved for a positive lattice vector (C66_ring_partial, end to end for chains in C66_chain); it fails for a negative one (C66_ring_fails)."
  },
  {
   "property": "C67",
   "status": "partial",
   "theorems": [
    "Lattpy.C67_unrecorded_fails",
    "Lattpy.Lattice.C67_set_periodic_partial",
    "Lattpy.Lattice.C67_build_partial",
    "Lattpy.Lattice.C67_history_partial",
    "Lattpy.Lattice.C67_rebuild_fails"
   ],
   "note": "Proved for histories in which build and set_periodic do not raise: if there are periodic neighbours, periodic_axes names the last requested axes; it is always empty or one of the requests. Rebuilding without periodic boundaries leaves the old axes behind (C67_rebuild_fails), which also falsifies minimum_distances. C67_unrecorded_fails: the axis is not recorded when all periodic neighbours are regular ones."
  },
  {
   "property": "C68",
   "status": "partial",
   "theorems": [
    "Lattpy.Lattice.C68_interface_partial",
    "Lattpy.Lattice.C68_cells_partial",
    "Lattpy.Lattice.C68_block_direct",
    "Lattpy.Lattice.C68_cells_repeat_partial",
    "Lattpy.Lattice.C68_chain_partial",
    "Lattpy.Lattice.C68_direct",
    "Lattpy.Lattice.C68_repeat_partial",
    "Lattpy.Lattice.C68_extend_partial",
    "Lattpy.Lattice.C68_lost_link_fails",
    "Lattpy.Lattice.C68_repeat_left_fails",
    "Lattpy.C68_graphene_partial",
    "Lattpy.C68_rounded_fails",
    "Lattpy.C68_joined_partial",
    "Lattpy.C68_full_row_fails",
    "Lattpy.C68_spurious_fails",
    "Lattpy.C68_left_twice_fails"
   ],
   "note": "C68_interface_partial, for all lattices, axes and sides: the appended sites are shifted by one period, every site keeps its links and gets links to the sites across the interface within the query radius, as many as its row has free slots, stored at the next larger stored distance, or lost if there is none (restricted to tables with at most 256 different distances, one of them infinite). C68_chain_partial, C68_repeat_partial, C68_extend_partial: for chains with nb shells of which one has more than 2 nb sites, append (both sides), repeat (positive side, any number) and extend give exactly the neighbours of the chain built directly (C68_direct). C68_lost_link_fails: two short chains lose the links of the second shell. C68_repeat_left_fails: repeat on the negative side puts all copies on the same place. C68_cells_partial, C68_cells_repeat_partial (any dimension): for structures whose links are those between nearest sites at most one cell away (hypercubic, hexagonal, honeycomb, graphene with one shell), blocks of whole cells of which one has at least three cells along the axis, appended on either side or repeated on the positive side, are the block of all these cells with every pair at the distance r linked once at the level of r (IsBlock), so they have the sites and neighbours of the direct build (C68_block_direct); C68_joined_partial: the same for any number of appends of built blocks along any axes and sides (the blocks start at the same cell), each of which succeeds; C68_graphene_partial: the case of primitive graphene builds. They need r not to be rounded down by the storage with six decimals: C68_rounded_fails shows that otherwise (for example r = 4/3) append makes no link at all across the interface. Repeating a periodic lattice is covered by C99_repeat_fails. Further counterexamples, run over the rationals: C68_full_row_fails (links dropped from full rows), C68_spurious_fails (pairs that are not connected get linked at a wrong distance), C68_left_twice_fails (overlapping sites)."
  },
  {
   "property": "C69",
   "status": "proved",
   "theorems": [
    "Lattpy.C69_limits",
    "Lattpy.C69_relative_position",
    "Lattpy.C69_center_of_gravity",
    "Lattpy.C69_unbuilt_center",
    "Lattpy.C69_history"
   ],
   "note": "C69_limits, C69_relative_position and C69_center_of_gravity hold for every lattice with at least one site; C69_history shows that the data of every history of calls meet their hypotheses (masses given as numbers). C69_unbuilt_center: without data center_of_gravity returns an empty array while center raises."
  },
  {
   "property": "C70",
   "status": "proved",
   "theorems": [
    "Lattpy.C70_cells",
    "Lattpy.C70_history"
   ],
   "note": "C70_cells: exact count of occupied cells and volume for any data; upper bound for sites stored once. C70_history: all bounds after every history of calls without explicit index dtype."
  },
  {
   "property": "C71",
   "status": "partial",
   "theorems": [
    "Lattpy.C71_failing_build_partial",
    "Lattpy.C71_lost_sites_fails"
   ],
   "note": "C71_lost_sites_fails: build resets the data before its checks, so a failing build loses the previous sites. C71_failing_build_partial: the configuration survives and repeating the earlier build call restores the same sites, neighbours and shape; the data after a failure are gone or those of the failing call."
  },
  {
   "property": "C72",
   "status": "partial",
   "theorems": [
    "Lattpy.C72_equality_partial",
    "Lattpy.C72_unbuilt_fails"
   ],
   "note": "C72_unbuilt_fails: comparing or hashing a lattice without shape raises TypeError. C72_equality_partial: equivalence relation, compatible with hash, for all lattices with atoms and a shape; str and md5 are arbitrary functions."
  },
  {
   "property": "C73",
   "status": "partial",
   "theorems": [
    "Lattpy.DispPath.C73_build_partial",
    "Lattpy.DispPath.C73_history",
    "Lattpy.DispPath.C73_history_free",
    "Lattpy.DispPath.C73_short_point_fails",
    "Lattpy.DispPath.C73_error",
    "Lattpy.DispPath.C73_points",
    "Lattpy.DispPath.C73_predefined",
    "Lattpy.DispPath.C73_predefined_zero"
   ],
   "note": "Proved for every path whose points have the dimension of the path (C73_build_partial; C73_history and C73_history_free show that the public calls keep it for points with enough components); a point with a missing component is broadcast (C73_short_point_fails); C73_error gives the other inputs, which raise. Also the predefined chain, square and cubic paths. Negative n_sect and scalar points are not modelled. C73_points: after any history the points and labels are exactly those given, in order, for paths of a given dimension or with points of one dimension."
  },
  {
   "property": "C74",
   "status": "partial",
   "theorems": [
    "Lattpy.DispPath.C74_lengths",
    "Lattpy.DispPath.C74_add",
    "Lattpy.DispPath.C74_cycle",
    "Lattpy.DispPath.C74_short_point_fails",
    "Lattpy.DispPath.C74_ticks_partial"
   ],
   "note": "Proved for all histories: labels, points, ticks have equal lengths; add and cycle specified exactly; the built path at tick i is point i for paths whose points have the dimension of the path (the last tick is one past the end). Counterexample for a point with a missing component: NumPy broadcasts its only component. See also C73_points for the labels after a whole history."
  },
  {
   "property": "C75",
   "status": "partial",
   "theorems": [
    "Lattpy.C75_axis_partial",
    "Lattpy.C75_default_scales",
    "Lattpy.C75_errors",
    "Lattpy.C75_length_fails",
    "Lattpy.DispPath.C75_scales_partial",
    "Lattpy.DispPath.C75_path_partial"
   ],
   "note": "Proved for any scales when the number of values is a multiple of the number of sections (always so for a built path, C75_path_partial); otherwise the axis has the wrong length (C75_length_fails). Errors in C75_errors."
  },
  {
   "property": "C76",
   "status": "proved",
   "theorems": [
    "Lattpy.C76_colors",
    "Lattpy.C76_default",
    "Lattpy.C76_error"
   ],
   "note": "Proved for all sizes, colour lists and negative indices; out-of-range numbers raise IndexError."
  },
  {
   "property": "C77",
   "status": "partial",
   "theorems": [
    "Lattpy.Lattice.C77_torus_partial",
    "Lattpy.Lattice.C77_torus_fails"
   ],
   "note": "Proved for one and two dimensions (C77_torus_partial); in three dimensions a diagonal translation is missing (C77_torus_fails)."
  },
  {
   "property": "C78",
   "status": "partial",
   "theorems": [
    "Lattpy.C78_query_points_partial",
    "Lattpy.C78_zero_kept_fails",
    "Lattpy.C78_default_fails"
   ],
   "note": "Described for include_zero=True and for queries with a point outside the tree; in the latter case zero-distance neighbours are not left out (counterexample). The default arguments k=1, include_zero=False raise an IndexError (C78_default_fails): cKDTree then returns vectors, which are indexed like tables. Queries with the own points are C17."
  },
  {
   "property": "C79",
   "status": "proved",
   "theorems": [
    "Lattpy.C79_create",
    "Lattpy.C79_create_reserved"
   ],
   "note": "Proved for every reachable session; strings and values are abstract, repeated keyword arguments cannot be written in Python."
  },
  {
   "property": "C80",
   "status": "proved",
   "theorems": [
    "Lattpy.LatticeBasis.C80_hypercubic",
    "Lattpy.LatticeBasis.C80_named_cubic",
    "Lattpy.LatticeBasis.C80_oblique",
    "Lattpy.LatticeBasis.C80_hexagonal",
    "Lattpy.LatticeBasis.C80_zero"
   ],
   "note": "Proved over the reals; lengths and angles as inner products."
  },
  {
   "property": "C81",
   "status": "proved",
   "theorems": [
    "Lattpy.LatticeBasis.C81_fcc",
    "Lattpy.LatticeBasis.C81_bcc"
   ],
   "note": "Proved over the reals, both inclusions."
  },
  {
   "property": "C82",
   "status": "partial",
   "theorems": [
    "Lattpy.LatticeBasis.C82_layers_partial",
    "Lattpy.LatticeBasis.C82_layers_fails"
   ],
   "note": "Holds for a = 2 and fails otherwise (counterexample at the defaults). The meaning of az is not documented; the property takes it as the layer distance, by analogy with a1 and a2."
  },
  {
   "property": "C83",
   "status": "partial",
   "theorems": [
    "Lattpy.C83_analyze_partial",
    "Lattpy.C83_add_connections_partial",
    "Lattpy.C83_stale_fails"
   ],
   "note": "Proved for the state after analyze (or analyze=True); before it the neighbours are stale without an error (counterexample). The docstrings ask for the call."
  },
  {
   "property": "C84",
   "status": "partial",
   "theorems": [
    "Lattpy.C84_two_atoms",
    "Lattpy.C84_cubic_partial",
    "Lattpy.C84_hexagonal_partial",
    "Lattpy.C84_honeycomb_partial",
    "Lattpy.C84_graphene_partial",
    "Lattpy.C84_alternating_partial",
    "Lattpy.C84_nacl_partial",
    "Lattpy.C84_two_atoms_fails",
    "Lattpy.C84_rectangular_partial",
    "Lattpy.C84_rectangular_fails",
    "Lattpy.C84_answers",
    "Lattpy.C84_atoms"
   ],
   "note": "Exact neighbour sets for one level, for constants of at least 10^-5 (2*10^-5 with two kinds of atoms) because distances are rounded to six decimals. alternating_chain and nacl_structure link the nearest atoms but also those of the same kind (C84_two_atoms_fails); simple_rectangular only for clearly different constants and one level, with the default of two levels it links second-nearest atoms (C84_rectangular_fails). The answers including exceptions for all constants and levels are C84_answers; the atoms of the presets are C84_atoms (one atom) and C84_two_atoms (alternating_chain, nacl_structure)."
  },
  {
   "property": "C85",
   "status": "partial",
   "theorems": [
    "Lattpy.C85_orthogonal_partial",
    "Lattpy.C85_oblique_fails"
   ],
   "note": "Holds for chain, alternating chain, square, rectangular, cubic and hypercubic; fails for hexagonal, honeycomb, graphene and NaCl."
  },
  {
   "property": "C86",
   "status": "partial",
   "theorems": [
    "Lattpy.C86_general_partial",
    "Lattpy.C86_cubic_partial",
    "Lattpy.C86_cubic_vertices_partial",
    "Lattpy.C86_hexagonal_partial",
    "Lattpy.C86_fcc_partial",
    "Lattpy.C86_cell_fails",
    "Lattpy.C86_rectangular_fails"
   ],
   "note": "The strictly-inside direction and the kind of error are proved for every basis; the full cell for hypercubic (every dimension, with vertices and limits), hexagonal and fcc bases; counterexamples for bcc (only the eight nearest points are used) and for rectangular lattices (QhullError)."
  },
  {
   "property": "C87",
   "status": "partial",
   "theorems": [
    "Lattpy.C87_general_partial",
    "Lattpy.C87_cubic_partial",
    "Lattpy.C87_hexagonal_partial",
    "Lattpy.C87_bcc_partial",
    "Lattpy.C87_zone_fails"
   ],
   "note": "The strictly-inside direction and the errors are proved for every basis; the full zone for hypercubic, hexagonal and bcc bases; counterexample for fcc, whose reciprocal lattice is body-centred."
  },
  {
   "property": "C88",
   "status": "partial",
   "theorems": [
    "Lattpy.C88_weight_partial",
    "Lattpy.C88_errors",
    "Lattpy.C88_rows_partial",
    "Lattpy.C88_reciprocal_partial",
    "Lattpy.C88_own_sublattice_partial",
    "Lattpy.C88_hypercubic_partial",
    "Lattpy.C88_hexagonal_partial",
    "Lattpy.C88_honeycomb_partial",
    "Lattpy.C88_graphene_partial",
    "Lattpy.C88_array_fails",
    "Lattpy.C88_scalar_partial",
    "Lattpy.C88_scalar_fails",
    "Lattpy.C88_chain_shells_partial"
   ],
   "note": "Proved for one wave vector in every reachable configuration: the sum over the neighbours (C88_weight_partial), the raising cases (C88_errors), the behaviour under reciprocal lattice vectors, reality, and the closed forms for hypercubic (all dimensions), hexagonal, honeycomb and graphene presets with |a| >= 1e-5. The array case fails: the whole array is summed to one number (C88_array_fails; C88_rows_partial gives the sum). A number as k gives the sum of the weights along the axes (C88_scalar_partial), which is the weight only in one dimension (C88_scalar_fails). Exact arithmetic; np.exp is the complex exponential. C88_chain_shells_partial: the weight of every shell of the chain is 2 cos((n+1) k)."
  },
  {
   "property": "C89",
   "status": "partial",
   "theorems": [
    "Lattpy.C89_groups_partial",
    "Lattpy.C89_one_dimension_fails",
    "Lattpy.C89_name_parameter_fails"
   ],
   "note": "C89_groups_partial: for every reachable configuration whose atoms have no parameter called name, in two and more dimensions or with atleast2d=False, the dictionary groups the positions by name (one key per name, all positions of that name in order). C89_one_dimension_fails: in one dimension the default call raises a ValueError with NumPy 1.24 and later (ragged array) and does not give vectors of two numbers before. C89_name_parameter_fails: an atom with a parameter called name can make the call raise a KeyError."
  },
  {
   "property": "C90",
   "status": "proved",
   "theorems": [
    "Lattpy.C90_vectors",
    "Lattpy.C90_reversed",
    "Lattpy.C90_default",
    "Lattpy.C90_zero_step"
   ],
   "note": "C90_vectors: membership, no repetition and order for all non-zero steps and intervals that do not end a whole step before their start (start included exactly if it lies before stop). C90_reversed and C90_zero_step: the errors. C90_default: the one-argument form. Real numbers in place of floats; the dtype argument and sequences of different lengths are not modelled."
  },
  {
   "property": "C91",
   "status": "proved",
   "theorems": [
    "Lattpy.C91_nums",
    "Lattpy.C91_steps",
    "Lattpy.C91_errors",
    "Lattpy.C91_layout",
    "Lattpy.C91_cell"
   ],
   "note": "C91_nums and C91_steps: the vectors of the grid and which of them are NaN, for every cell and dimension; C91_layout: the order of the entries in two dimensions (a row for every second coordinate); C91_errors: the errors; C91_cell: for cells whose check is right in the sense of C86 (IsCell, proved there for the hypercubic, hexagonal and face-centred lattices) the remaining vectors are closest to the origin and interior ones are kept. Scalar nums and steps are the constant functions."
  },
  {
   "property": "C92",
   "status": "proved",
   "theorems": [
    "Lattpy.C92_limits",
    "Lattpy.C92_positions",
    "Lattpy.C92_build"
   ],
   "note": "Proved for all data, and for the data left by a build with any arguments in any reachable configuration, also when the build raises."
  },
  {
   "property": "C93",
   "status": "partial",
   "theorems": [
    "Lattpy.C93_pairs_partial",
    "Lattpy.C93_swap",
    "Lattpy.C93_no_data",
    "Lattpy.C93_distances_fails"
   ],
   "note": "Proved: exactly the pairs within the largest configured distance plus a tenth of the smallest distance found by analyze, each once, ordered, with the distance; those at a configured distance are among them if the distances are at least 5e-6; exchanging lattices of the same configuration exchanges the pairs; missing data raises. Counterexample: two sites at the same position are reported as connected although zero is no configured distance."
  },
  {
   "property": "C94",
   "status": "partial",
   "theorems": [
    "Lattpy.C94_long",
    "Lattpy.C94_short",
    "Lattpy.C94_range_partial",
    "Lattpy.C94_range_fails",
    "Lattpy.C94_short_range_fails"
   ],
   "note": "The denoted times are proved for both forms and all times; numbers never exceed the limit of their unit. Counterexamples to the strict ranges: 59.96 s gives 60.0s, 3599.96 s gives 59:60.0min, 0.99996 s gives 1000.0ms, and the short form of one hour is 60:00. Padding of the strings is not modelled."
  },
  {
   "property": "C95",
   "status": "partial",
   "theorems": [
    "Lattpy.C95_original_partial",
    "Lattpy.C95_connections",
    "Lattpy.C95_no_connections_partial",
    "Lattpy.C95_shared_fails",
    "Lattpy.C95_copy_partial",
    "Lattpy.C95_copy_connections",
    "Lattpy.C95_original_fails",
    "Lattpy.C95_separate",
    "Lattpy.C95_added"
   ],
   "note": "Vectors, atoms, positions and analysis of the original never change under calls on the copy, and those of the copy never change under calls on the original (C95_copy_partial, which also shows that the original behaves as without the copy); the original does not change at all under add_atom and analyze on the copy; once an atom has been added to the original both are independent (C95_added, C95_separate). Counterexamples: add_connections(2) on the copy changes the configured connections of the original (C95_shared_fails), and the other way round (C95_original_fails), because both hold the same array; C95_copy_connections shows it for all histories of calls on an analysed original. Sharing of Atom objects (attributes set on an atom of the copy) is not modelled."
  },
  {
   "property": "C96",
   "status": "partial",
   "theorems": [
    "Lattpy.C96_num_distances_partial",
    "Lattpy.C96_padding_fails"
   ],
   "note": "Proved for all tables with at most 256 different entries: num_distances is the number of different finite distances, plus one if some site lacks a neighbour. The plus one is a counterexample to the property: a built chain of four sites has one distance and num_distances is 2."
  },
  {
   "property": "C97",
   "status": "partial",
   "theorems": [
    "Lattpy.C97_boundary",
    "Lattpy.C97_origin",
    "Lattpy.C97_dim",
    "Lattpy.C97_planar",
    "Lattpy.C97_square_partial",
    "Lattpy.C97_cube_partial",
    "Lattpy.C97_edges_fails"
   ],
   "note": "Boundary, planar edge centres and the error in higher dimensions are proved for all points, assuming exact Qhull output (contract QhullRidges, shown to be satisfiable). Square and simple cubic lattice for lattice constants of at least 1e-7 (the absolute tolerance of np.isclose). Counterexample: for the simple cubic lattice the edge centres are listed with repetitions, because each edge belongs to two faces. That consecutive vertices of a face are joined by an edge (order of Qhull in three dimensions) is not assumed, so in three dimensions the edge centres are only proved to lie on the faces."
  },
  {
   "property": "C98",
   "status": "partial",
   "theorems": [
    "Lattpy.C98_grid",
    "Lattpy.C98_torus_partial",
    "Lattpy.C98_all_axes_partial",
    "Lattpy.C98_neighbors_partial",
    "Lattpy.C98_thin_fails",
    "Lattpy.C98_small_fails"
   ],
   "note": "Proved for all sizes and dimensions without periodic axes (C98_grid). With periodic axes (given or all with True) proved for three or more cells along them; for two or more cells the neighbour sets are still right (C98_neighbors_partial), the translations are not (C98_small_fails: 2 x 3). With one cell along one and three or more along another periodic axis the call raises a ValueError (C98_thin_fails). One cell along a periodic axis and at most two along all others is not covered. Lattice constant 1 and one neighbour shell only."
  },
  {
   "property": "C99",
   "status": "partial",
   "theorems": [
    "Lattpy.C99_repeat_fails",
    "Lattpy.C99_history",
    "Lattpy.C99_joined_partial",
    "Lattpy.C99_unpadded_fails"
   ],
   "note": "C99_history: invariant over Lattice.run for all lists of configuration, build and set_periodic calls, any outcome. C99_joined_partial: inductive closure Lattice.Used with append, extend and repeat; partial because set_periodic needs a padded table (infinite distance stored) and repeat with num > 1 a lattice without periodic neighbours in these histories; negative site numbers and the state after an exception inside LatticeData.append are not modelled. C99_unpadded_fails: a history with a join and set_periodic on an unpadded table breaks the invariant. C99_repeat_fails: repeat with num = 2 of a periodic square lattice breaks it, because the first repetition overwrites the neighbour array the second one reads."
  },
  {
   "property": "C100",
   "status": "partial",
   "theorems": [
    "Lattpy.Lattice.C100_plot",
    "Lattpy.Lattice.C100_history",
    "Lattpy.Lattice.C100_errors",
    "Lattpy.Lattice.C100_stubs",
    "Lattpy.C100_grid",
    "Lattpy.C100_torus_partial",
    "Lattpy.C100_small_fails"
   ],
   "note": "C100_plot for every lattice with sound tables; C100_history for all histories of calls; C100_grid and C100_torus_partial for finite_hypercubic; C100_stubs, C100_errors. Partial: the torus needs three or more cells along each periodic axis; with two cells along an axis a diagonal grey line is drawn (C100_small_fails); line widths, zorder, legend, grid, margins and matplotlib itself are not modelled."
  },
  {
   "property": "C101",
   "status": "proved",
   "theorems": [
    "Lattpy.C101_edges",
    "Lattpy.C101_once",
    "Lattpy.C101_twice"
   ],
   "note": "C101_edges, C101_once (plane), C101_twice (space)."
  },
  {
   "property": "C102",
   "status": "partial",
   "theorems": [
    "Lattpy.C102_cell",
    "Lattpy.C102_all_partial",
    "Lattpy.C102_errors",
    "Lattpy.C102_one_atom",
    "Lattpy.C102_cell_fails"
   ],
   "note": "C102_cell, C102_errors and C102_one_atom hold for all reachable structures. That all neighbours are drawn is proved only if no atom has more than num_distances different neighbour distances (C102_all_partial); counterexample alternating_chain with neighbors=1 (C102_cell_fails). Colours, line widths and the order of the circles in matplotlib are outside the model."
  },
  {
   "property": "C103",
   "status": "partial",
   "theorems": [
    "Lattpy.C103_access_partial",
    "Lattpy.C103_no_neighbors_fails",
    "Lattpy.C103_far_fails"
   ],
   "note": "C103_access_partial: padded tables with at most 256 distances, and for nearest_neighbors at least one pair of neighbours. Counterexamples: in a lattice without neighbours (a single site) nearest_neighbors lists the number of sites, which is no site (C103_no_neighbors_fails, general); a site whose neighbours are farther than the nearest pair of the lattice has no nearest neighbours (C103_far_fails)."
  },
  {
   "property": "C104",
   "status": "partial",
   "theorems": [
    "Lattpy.C104_dict_partial",
    "Lattpy.C104_slots",
    "Lattpy.C104_method_fails",
    "Lattpy.C104_weight_fails",
    "Lattpy.C104_name_fails"
   ],
   "note": "C104_dict_partial (no parameter called dict) and C104_slots hold for all histories; parameters called index, name or weight hide the attributes (C104_name_fails), a parameter called dict hides the method (C104_method_fails), and the weight is missing from the dictionary (C104_weight_fails)."
  },
  {
   "property": "C105",
   "status": "partial",
   "theorems": [
    "Lattpy.DispPlot.C105_plot_partial",
    "Lattpy.DispPlot.C105_length_fails",
    "Lattpy.DispPlot.C105_atom_fails",
    "Lattpy.DispPlot.C105_grid_fails",
    "Lattpy.DispPlot.C105_colors",
    "Lattpy.DispPath.C105_path_partial",
    "Lattpy.DispPath.C105_subplots_fails"
   ],
   "note": "C105_plot_partial for all energies and colours, C105_path_partial for a built path, C105_colors for short colour lists. Partial: a number of wave vectors that is no multiple of the number of sections (C105_length_fails), one atom as colour (C105_atom_fails), releases of Matplotlib without the keyword b of Axes.grid (C105_grid_fails) and the axes of path.subplots (C105_subplots_fails) are proved counterexamples; line width, alpha, axis label texts and Matplotlib itself are not modelled."
  },
  {
   "property": "C106",
   "status": "partial",
   "theorems": [
    "Lattpy.DispPlot.C106_plot_partial",
    "Lattpy.DispPlot.C106_more_fails",
    "Lattpy.DispPlot.C106_grid_fails",
    "Lattpy.DispPath.C106_path_partial"
   ],
   "note": "C106_plot_partial and, for a built path, C106_path_partial, with the restrictions of C105 and at most one density of states per band. More of them raise IndexError (C106_more_fails), grid=True raises (C106_grid_fails)."
  },
  {
   "property": "C107",
   "status": "partial",
   "theorems": [
    "Lattpy.DispPlot.C107_line",
    "Lattpy.DispPlot.C107_plane",
    "Lattpy.DispPlot.C107_errors",
    "Lattpy.DispPlot.C107_label_fails"
   ],
   "note": "C107_line, C107_plane, C107_errors; the label of the colour bar of a single band in two dimensions is wrong (C107_label_fails). The border of the zone in two dimensions, the ticks and Matplotlib itself are not modelled."
  },
  {
   "property": "C108",
   "status": "proved",
   "theorems": [
    "Lattpy.C108_any_shape",
    "Lattpy.C108_boxes"
   ],
   "note": "C108_boxes: preset, build of an arbitrary box at the origin, exact neighbours. C108_any_shape: exact neighbours after every successful build. Both over the real numbers; the distance between sites is the Euclidean distance of the stored positions."
  },
  {
   "property": "C109",
   "status": "partial",
   "theorems": [
    "Lattpy.C109_structures_partial",
    "Lattpy.C109_lattices_partial",
    "Lattpy.C109_atom_text",
    "Lattpy.C109_atomless",
    "Lattpy.C109_atoms",
    "Lattpy.C109_fresh_fails",
    "Lattpy.C109_periodic_fails",
    "Lattpy.C109_sites_fails"
   ],
   "note": "Proved: the equivalence with the equality of the printed parts, for structures and for built lattices (C109_structures_partial, C109_lattices_partial), under the named assumptions on texts and MD5; equal lattices consist of atoms with the same creation numbers (C109_atoms). Refuted: the same calls made twice give unequal lattices, because the text of an atom contains its creation number (C109_fresh_fails); a lattice equals itself after set_periodic (C109_periodic_fails); a chain equals a chain of the same extent with a vacancy (C109_sites_fails). C109_atom_text: what the text of an atom shows (name, parameters, creation number or a parameter called index). C109_atomless: structures without atoms raise TypeError."
  },
  {
   "property": "C110",
   "status": "partial",
   "theorems": [
    "Lattpy.C110_entries_partial",
    "Lattpy.C110_lengths",
    "Lattpy.C110_no_double_partial",
    "Lattpy.C110_history_partial",
    "Lattpy.C110_readme_partial",
    "Lattpy.C110_twice_fails",
    "Lattpy.C110_single_fails",
    "Lattpy.C110_negative_fails",
    "Lattpy.C110_presets",
    "Lattpy.C110_joined_partial"
   ],
   "note": "C110_entries_partial gives every entry for any consistent tables with atom numbers below 128 (C55_int8_fails) and any documented assignments: site value on the diagonal plus the level values counted with the multiplicity of the neighbour lists (SciPy adds duplicates). C110_history_partial carries this to all histories of configuration calls, build and set_periodic, for the first dmap() (tables with an empty slot, at most 256 distances). C110_no_double_partial and C110_readme_partial: without self links and double links it is the documented matrix and the README loop. C110_presets: nearest-neighbour matrix of the seven presets. Counterexamples: small periodic chain (link added to the diagonal), single site (loop raises IndexError), negative mask arguments. C110_lengths: length of the map, IndexError for arrays of any other length. C110_joined_partial: the same for histories that also join lattices by append, extend and repeat (inductive predicate Used of C99)."
  },
  {
   "property": "C111",
   "status": "partial",
   "theorems": [
    "Lattpy.C111_joined_partial",
    "Lattpy.C111_repeat_partial",
    "Lattpy.C111_torus_partial",
    "Lattpy.C111_honeycomb_fails",
    "Lattpy.C111_hexagonal_partial",
    "Lattpy.C111_honeycomb_partial"
   ],
   "note": "C111_torus_partial: for whole-cell builds of NearestOnly structures with NearSteps, set_periodic succeeds and the result is exactly the torus (spec IsTorus, in terms of Euclidean distances of shifted images); every site has the coordination of the infinite lattice. C111_joined_partial, C111_repeat_partial: the same for lattices joined from blocks by any number of appends or by repeat on the positive side (r not rounded down, see C68). C111_hexagonal_partial and C111_honeycomb_partial: end to end for three presets with primitive box shapes. Partial: at least three cells per periodic axis, NearSteps (all translations tried), only the three presets end to end. C111_honeycomb_fails: honeycomb boxes of integer size n keep n+1 cells of first atoms but fewer second ones; after set_periodic the first site has at most one neighbour."
  },
  {
   "property": "C112",
   "status": "partial",
   "theorems": [
    "Lattpy.AShape.C112_box",
    "Lattpy.AShape.C112_box_space",
    "Lattpy.AShape.C112_circle",
    "Lattpy.AShape.C112_donut_partial",
    "Lattpy.AShape.C112_donut_fails",
    "Lattpy.AShape.C112_line_fails"
   ],
   "note": "C112_box (plane) and C112_box_space (three dimensions) for all sizes >= 0, positions and bases of linearly independent vectors; C112_circle for all circles; C112_donut_partial for rings around the origin. C112_donut_fails: Donut.plot ignores the position, so a ring elsewhere is drawn at the origin. C112_line_fails: Shape.plot raises a ValueError in one dimension. Partial for these two."
  },
  {
   "property": "C113",
   "status": "partial",
   "theorems": [
    "Lattpy.C113_grid_partial",
    "Lattpy.C113_ends",
    "Lattpy.C113_points",
    "Lattpy.C113_errors",
    "Lattpy.C113_single_fails"
   ],
   "note": "C113_grid_partial for at least two grid lines in each direction, every interpolation oracle accepting the data; C113_ends that the grid reaches both ends; C113_points that given values are reproduced by every exact interpolation (any number of grid lines); C113_errors the exceptions. C113_single_fails: with one grid line the grid does not reach the far end. SciPy's griddata is an oracle."
  },
  {
   "property": "C114",
   "status": "partial",
   "theorems": [
    "Lattpy.C114_unchanged_partial",
    "Lattpy.C114_first_call",
    "Lattpy.C114_unchecked",
    "Lattpy.C114_check_points_fails",
    "Lattpy.C114_build_indices_fails"
   ],
   "note": "C114_unchanged_partial: for lists, for integers and without relative/primitive. C114_unchecked: build_indices keeps every object if check=False or if the cells cannot be made. C114_first_call: the first call gives the same result for arrays and lists. C114_check_points_fails: with relative=True an array of floats is changed by adding the margin. C114_build_indices_fails: build_indices(np.array([3.0]), primitive=True) of the unit chain called twice with the same array returns three sites, then four. Lattice.build is not affected because it copies the sizes into a Shape first."
  },
  {
   "property": "C115",
   "status": "proved",
   "theorems": [
    "Lattpy.C115_copy",
    "Lattpy.C115_equal",
    "Lattpy.C115_apart",
    "Lattpy.C115_independent",
    "Lattpy.C115_made",
    "Lattpy.C115_behaves"
   ],
   "note": "C115_copy gives the copy, C115_equal the equality, C115_independent the independence in both directions (from C115_apart, for any two lattices without common atoms), C115_made that the hypothesis holds for every lattice a program can make. The behaviour of deepcopy for a class with slots and the memo are modelled by hand (Model/Copy.lean); parameter values are taken as immutable. The copied atoms keep their index numbers, so these are not unique in the session any more: C26_lattice_copy_fails. C115_behaves: the same steps on the copy and on the original have the same outcomes; atoms have to be named by number or name in these steps (an Atom object of the original is not an object of the copy)."
  },
  {
   "property": "C116",
   "status": "partial",
   "theorems": [
    "Lattpy.C116_last_call",
    "Lattpy.C116_order_partial",
    "Lattpy.C116_atom_fails"
   ],
   "note": "Proved for the calls of add_connection among themselves, for references by number (also negative), name and object. Fails for add_atom after add_connection: all connections are reset to 0 (C116_atom_fails)."
  },
  {
   "property": "C117",
   "status": "partial",
   "theorems": [
    "Lattpy.C117_overlap_partial",
    "Lattpy.C117_nearest_partial",
    "Lattpy.C117_presets",
    "Lattpy.C117_chain_shells",
    "Lattpy.C117_two_atoms_fails"
   ],
   "note": "C117_overlap_partial: any structure, conditions on padding and tree query; C117_nearest_partial and C117_presets: no condition on the builds for connections between nearest sites; C117_chain_shells: chains with any number of shells up to 255; C117_two_atoms_fails: dropping a site of the dimerised chain makes two other sites neighbours."
  },
  {
   "property": "C118",
   "status": "partial",
   "theorems": [
    "Lattpy.C118_sites_partial",
    "Lattpy.C118_lattice_partial",
    "Lattpy.C118_hypercubic",
    "Lattpy.C118_honeycomb",
    "Lattpy.C118_index_type_fails",
    "Lattpy.C118_tolerance_fails"
   ],
   "note": "Proved for atoms in the first two cells, regions whose accepted sites lie within the limits, and search windows that reach all cells: bases whose coordinates grow in all Cartesian directions, or regions in the positive quadrant and coordinates that grow in one of them (C118_sites_partial, C118_lattice_partial); without conditions on the result for boxes of whole cells of the hypercubic presets (C118_hypercubic) and for clean boxes in the positive quadrant of the hexagonal ones (C118_honeycomb). Fails for long chains around the origin (C118_index_type_fails) and for boxes that end within the tolerance before a lattice plane (C118_tolerance_fails); sheared bases lose sites at some places (C40_shear_fails)."
  },
  {
   "property": "C119",
   "status": "partial",
   "theorems": [
    "Lattpy.C119_sites_partial",
    "Lattpy.C119_lattice_partial",
    "Lattpy.C119_hypercubic",
    "Lattpy.C119_honeycomb",
    "Lattpy.C119_tolerance_fails"
   ],
   "note": "C119_sites_partial: build_indices of two scaled structures. C119_lattice_partial: the built lattices with neighbours, for connections between nearest sites. C119_hypercubic: simple_chain, simple_square, simple_cubic and hypercubic structures with any two lattice constants above 1e-3, boxes of whole cells, both builds succeed. C119_honeycomb: hexagonal presets, clean boxes in the positive quadrant, any larger constant. C119_tolerance_fails: for the constant 1e-4 the chain of one cell has an extra site. The partial theorems need atoms in the first two cells, windows of the right size, and reach of all cells as in C40."
  },
  {
   "property": "C120",
   "status": "partial",
   "theorems": [
    "Lattpy.C120_restrict_partial",
    "Lattpy.C120_presets",
    "Lattpy.C120_two_atoms_fails",
    "Lattpy.C120_chain_shells",
    "Lattpy.C120_level_fails"
   ],
   "note": "C120_restrict_partial: every structure with connections between nearest sites (NearestOnly) where every atom has neighbours. C120_presets: the seven presets with one shell discharge the hypotheses. C120_two_atoms_fails: with two levels of distances the finite lattice loses a neighbour that the infinite structure has. C120_chain_shells: chains with any number of shells up to 255, any length, any sites dropped; the levels agree for whole chains with more than nb sites. C120_level_fails: with dropped sites the level numbers of the finite lattice differ from those of the structure. Several shells in higher dimensions are not covered by the positive theorems."
  },
  {
   "property": "C121",
   "status": "partial",
   "theorems": [
    "Lattpy.C121_last_call_partial",
    "Lattpy.C121_build_partial",
    "Lattpy.C121_dangling_fails"
   ],
   "note": "Proved over the real numbers for lattices built without min_neighbors (and without the num_bits argument) in which the infinite distance is among the stored distance values and there are at most 256 of these. The recorded periodic axes agree if there are periodic neighbours; otherwise set_periodic may leave the old ones (see C67). C121_dangling_fails: with min_neighbors the removed sites leave gaps in the rows, set_periodic writes over regular neighbours, and set_periodic(False) does not restore them."
  },
  {
   "property": "C122",
   "status": "partial",
   "theorems": [
    "Lattpy.C122_build_again_partial",
    "Lattpy.C122_failed_build_fails"
   ],
   "note": "Proved for all arguments, states and outcomes. C122_failed_build_fails: a build that raises leaves the shape and the recorded axes of the previous lattice behind, so that set_periodic raises IndexError instead of NotBuiltError. Recorded axes without periodic neighbours are covered by C67_rebuild_fails."
  },
  {
   "property": "C123",
   "status": "partial",
   "theorems": [
    "Lattpy.C123_snapshot_partial",
    "Lattpy.C123_set_periodic_fails",
    "Lattpy.C123_check_neighbors_fails"
   ],
   "note": "C123_snapshot_partial: everything but check_neighbors and set_periodic, for all histories. C123_check_neighbors_fails: check_neighbors tries as many levels as are configured now and misses neighbours after add_connections with fewer. C123_set_periodic_fails: after add_connections with more shells set_periodic raises and loses the periodic neighbours. Changes through lattice.data directly and new values of the parameters of an atom are not configuration calls here; center_of_gravity depends on these parameters and is left out."
  },
  {
   "property": "C124",
   "status": "partial",
   "theorems": [
    "Lattpy.C124_torus_partial",
    "Lattpy.C124_joined_partial",
    "Lattpy.C124_hypercubic_partial",
    "Lattpy.C124_ring_partial",
    "Lattpy.C124_graphene_partial"
   ],
   "note": "Homogeneous (Props/TorusSymmetry.lean) speaks about indices and reported neighbours only. Proved for one nearest-neighbour shell under the hypotheses of C111 (direct builds), for lattices joined by append, for finite_hypercubic with two or more cells along the periodic axes, for chains with any number of shells, and from the constructor on for graphene. Several shells are covered for chains only."
  },
  {
   "property": "C125",
   "status": "partial",
   "theorems": [
    "Lattpy.C125_ring_partial",
    "Lattpy.C125_torus_partial",
    "Lattpy.C125_shells_fails",
    "Lattpy.C125_stale_fails"
   ],
   "note": "C125_torus_partial: one nearest-neighbour shell, hypotheses of C111. C125_shells_fails: a ring of five sites with three shells stores a pair at distance 2 as third neighbours and the moved pair as second neighbours. C125_stale_fails: a data map computed before set_periodic is returned again afterwards. C125_ring_partial: a ring with nb shells and more than 2 nb sites gives the circulant matrix with one value per shell, unchanged by moving both sites."
  },
  {
   "property": "C126",
   "status": "partial",
   "theorems": [
    "Lattpy.C126_neighbors_partial",
    "Lattpy.C126_hamiltonian_partial",
    "Lattpy.C126_graphene_partial",
    "Lattpy.C126_shells_fails",
    "Lattpy.C126_ring_partial",
    "Lattpy.C126_ring_weights_partial"
   ],
   "note": "Proved over the reals for all blocks of whole cells of a lattice with one shell (NearestOnly, NearSteps) with at least 3 cells along all axes, all axes periodic and the default dmap() after set_periodic. Graphene with its explicit 2 x 2 matrix for the constants a >= 1 and box sizes of C111. C126_shells_fails: with several shells on short rings the shells of the ring differ from those of the infinite chain (C64_level_fails), shown at k = 0 by counting. C126_ring_partial: a ring with nb shells and more than 2 nb sites has the eigenvalues eps + sum of 2 t_n cos((n+1) k), and C126_ring_weights_partial says the same with the weights returned by fourier_weights for every shell."
  },
  {
   "property": "C127",
   "status": "partial",
   "theorems": [
    "Lattpy.C127_chiral_partial",
    "Lattpy.C127_finite_partial",
    "Lattpy.C127_torus_partial",
    "Lattpy.C127_presets_partial",
    "Lattpy.C127_graphene_torus_partial",
    "Lattpy.C127_even_ring_partial",
    "Lattpy.C127_odd_ring_fails",
    "Lattpy.C127_hypercubic_torus_partial",
    "Lattpy.C127_connected_partial",
    "Lattpy.C127_honeycomb_partial"
   ],
   "note": "Colour = parity of the cell (hypercubic) or atom (honeycomb): finite lattices (C127_presets_partial), general nearest-neighbour structures with a colouring, finite and periodic (C127_finite_partial, C127_torus_partial), graphene torus (C127_graphene_torus_partial), honeycomb and graphene after any sequence of set_periodic calls (C127_honeycomb_partial), from the general fact that atoms without a connection never become neighbours (C127_connected_partial), even rings (C127_even_ring_partial), finite_hypercubic with periodic axes: a colouring exists if and only if all periodic axes are even (C127_hypercubic_torus_partial); odd rings have no colouring (C127_odd_ring_fails). The pairing of energies is proved for every history of calls whose lattice is two-coloured (C127_chiral_partial). Partial: no min_neighbors, periodic or bits argument of build, lattice constant resolved by the rounding, at most 256 distances, at most 128 atoms; several shells are not covered."
  },
  {
   "property": "C128",
   "status": "partial",
   "theorems": [
    "Lattpy.C128_grid",
    "Lattpy.C128_torus_partial",
    "Lattpy.C128_length_partial",
    "Lattpy.C128_gap_fails"
   ],
   "note": "Proved for the open grid of any size (C128_grid) and for all sets of periodic axes with two or more cells (C128_torus_partial; with one cell the call raises, C98_thin_fails): a path of the length of the cell distance exists and no path is shorter. For every structure whose connections are those of nearest sites and every shape, sites n hops apart are at most n nearest-neighbour distances apart (C128_length_partial, without min_neighbors and periodic axes). Lattices of other shapes can fall apart (C128_gap_fails). Partial: lattice constant 1 and one shell only."
  },
  {
   "property": "C129",
   "status": "partial",
   "theorems": [
    "Lattpy.C129_band_partial",
    "Lattpy.C129_width_partial",
    "Lattpy.C129_graphene_partial"
   ],
   "note": "Proved from the entries of the matrix (C110) by Gershgorin's argument for every history of calls (C129_band_partial), for the values of README.md with the constant vector as the extreme case (C129_width_partial), and for graphene on the torus with both ends of the spectrum (C129_graphene_partial). Partial like C110: at most 256 stored distances, a stored distance of padding, fewer than 128 atoms, and no dmap() before the last change (C125_stale_fails)."
  },
  {
   "property": "C130",
   "status": "partial",
   "theorems": [
    "Lattpy.C130_finite_partial",
    "Lattpy.C130_torus_partial",
    "Lattpy.C130_history_partial",
    "Lattpy.C130_chain_partial",
    "Lattpy.C130_append_fails"
   ],
   "note": "Proved for every shape (C130_finite_partial) and for blocks of whole cells with any periodic axes (C130_torus_partial) of structures with one nearest-neighbour distance, for all assigned values; for chains with any number of shells and any set of sites (C130_chain_partial); for every history of calls if the lists of neighbours are symmetric level by level (C130_history_partial). Fails for joined lattices (C130_append_fails). Partial: other structures with several shells only under the symmetry of the lists (C45), fewer than 129 atoms per cell, no min_neighbors."
  },
  {
   "property": "C131",
   "status": "partial",
   "theorems": [
    "Lattpy.C131_block_partial",
    "Lattpy.C131_torus_partial",
    "Lattpy.C131_append_partial",
    "Lattpy.C131_graphene_partial",
    "Lattpy.C131_append_fails"
   ],
   "note": "Proved for structures with nearest-neighbour connections only (NearestOnly), without min_neighbors and for blocks of whole cells; periodic axes need at least three cells, joined blocks need at least three cells in one of them along the axis and a distance that is not rounded down when stored. Instances: graphene (constants at least 1, boxes as in graphene_block) and the hexagonal lattice (C132_hexagonal_partial). Joined graphene sheets with the distance 4/3 fall into two parts (C131_append_fails); other shapes may fall apart as well (C128_gap_fails)."
  },
  {
   "property": "C132",
   "status": "partial",
   "theorems": [
    "Lattpy.C132_edge_partial",
    "Lattpy.C132_graphene_partial",
    "Lattpy.C132_hexagonal_partial"
   ],
   "note": "Proved for structures with nearest-neighbour connections only, whole cells, at least three cells along each periodic axis and at most 128 atoms per cell; that each site has z neighbours is a hypothesis on the result of neighbors(), met by graphene with z = 3 (C132_graphene_partial) and by the hexagonal lattice with z = 6 (C132_hexagonal_partial). The opposite end eps - z * t is covered for lattices with two sublattices, where it belongs to the vectors of opposite sign on them (for graphene: on the two atoms). No counterexample was looked for outside these hypotheses; for lattices in separate parts see C131_append_fails."
  }
 ]
}
import Verif.Model.Basis

/-! # The model on the values of the repository's unit tests

These are tests of the model, not proofs of properties: each line repeats a parametrised case of
`lattpy/tests` and evaluates the model on it. -/

set_option autoImplicit false

namespace Lattpy

/-! ## test_utils.py 18-34, `test_min_dtype` -/

#guard minDtype [127] false = some ⟨false, 8⟩
#guard minDtype [-127] false = some ⟨true, 8⟩
#guard minDtype [127] true = some ⟨true, 8⟩
#guard minDtype [128] false = some ⟨false, 8⟩
#guard minDtype [-128] false = some ⟨true, 8⟩
#guard minDtype [128] true = some ⟨true, 16⟩
#guard minDtype [-128, 127] false = some ⟨true, 8⟩
#guard minDtype [-128, 128] false = some ⟨true, 16⟩
#guard minDtype [-129, 127] false = some ⟨true, 16⟩
#guard minDtype [30, 127] false = some ⟨false, 8⟩

/-! ## test_utils.py 37-47, `test_chain` -/

#guard (chain [0, 1, 2] false).toOption = some [(0, 1), (1, 2)]
#guard (chain [0, 1, 2] true).toOption = some [(0, 1), (1, 2), (2, 0)]
#guard (chain ["0", "1", "2"] false).toOption = some [("0", "1"), ("1", "2")]
#guard (chain ["0", "1", "2"] true).toOption = some [("0", "1"), ("1", "2"), ("2", "0")]

/-! ## test_spatial.py 53-62, `test_interweave` -/

#guard (interweave [[1, 3], [2, 4]]).toOption = some [some 1, some 2, some 3, some 4]
#guard (interweave [[1, 4], [2, 5], [3, 6]]).toOption =
  some [some 1, some 2, some 3, some 4, some 5, some 6]
#guard (interweave [[[1, 1], [3, 3]], [[2, 2], [4, 4]]]).toOption =
  some [some [1, 1], some [2, 2], some [3, 3], some [4, 4]]

/-! ## test_spatial.py 65-77, `test_vindices` (default arguments: sorted along axis 0) -/

/-- The result of `vindices` as a list of lists. -/
def vindicesRows {d : ℕ} (limits : Fin d → ℤ × ℤ) (ax : Fin d) : Option (List (List ℤ)) :=
  (vindices limits (some ax) none).toOption.map fun l => l.map List.ofFn

#guard vindicesRows ![(0, 1)] 0 = some [[0]]
#guard vindicesRows ![(0, 1), (0, 1)] 0 = some [[0, 0]]
#guard vindicesRows ![(0, 2)] 0 = some [[0], [1]]
#guard vindicesRows ![(0, 2), (0, 1)] 0 = some [[0, 0], [1, 0]]
#guard vindicesRows ![(0, 2), (0, 2)] 0 = some [[0, 0], [0, 1], [1, 0], [1, 1]]
#guard vindicesRows ![(0, 3), (0, 2)] 0 =
  some [[0, 0], [0, 1], [1, 0], [1, 1], [2, 0], [2, 1]]

/-! ## test_spatial.py 106-117, `test_cell_size` -/

#guard List.ofFn (cellSize (K := ℚ) ![![1, 0], ![0, 1]]) = [1, 1]
#guard List.ofFn (cellSize (K := ℚ) ![![2, 0], ![0, 1]]) = [2, 1]
#guard List.ofFn (cellSize (K := ℚ) ![![2, 0], ![1, 1]]) = [2, 1]
#guard List.ofFn (cellSize (K := ℚ) ![![2, 0], ![-1, 1]]) = [3, 1]
#guard List.ofFn (cellSize (K := ℚ) ![![2, 0, 0], ![0, 2, 0], ![0, 0, 2]]) = [2, 2, 2]

/-! ## test_basis.py 84-137, `test_translate` and `test_itranslate` -/

/-- `translate(nvec, r)` of the basis with the given vectors. -/
def sanityTranslate (rows : Matrix (Fin 2) (Fin 2) ℚ) (n : Fin 2 → ℤ) : Option (List ℚ) :=
  (LatticeBasis.init rows).toOption.map fun b => List.ofFn (b.translate n 0)

#guard sanityTranslate !![1, 0; 0, 1] ![2, 0] = some [2, 0]
#guard sanityTranslate !![1, 0; 0, 1] ![0, 2] = some [0, 2]
#guard sanityTranslate !![1, 0; 0, 1] ![1, 2] = some [1, 2]
#guard sanityTranslate !![2, 0; 0, 1] ![2, 0] = some [4, 0]
#guard sanityTranslate !![2, 0; 0, 1] ![0, 2] = some [0, 2]
#guard sanityTranslate !![2, 0; 0, 1] ![1, 2] = some [2, 2]

/-- `itranslate(x)` of the basis with the given vectors. -/
def sanityItranslate (rows : Matrix (Fin 2) (Fin 2) ℚ) (x : Fin 2 → ℚ) :
    Option (List ℤ × List ℚ) :=
  (LatticeBasis.init rows).toOption.map fun b =>
    (List.ofFn (b.itranslate x).1, List.ofFn (b.itranslate x).2)

#guard sanityItranslate !![1, 0; 0, 1] ![2, 0] = some ([2, 0], [0, 0])
#guard sanityItranslate !![1, 0; 0, 1] ![0, 2] = some ([0, 2], [0, 0])
#guard sanityItranslate !![1, 0; 0, 1] ![1, 2] = some ([1, 2], [0, 0])
#guard sanityItranslate !![2, 0; 0, 1] ![2, 0] = some ([1, 0], [0, 0])
#guard sanityItranslate !![2, 0; 0, 1] ![0, 2] = some ([0, 2], [0, 0])
#guard sanityItranslate !![2, 0; 0, 1] ![2, 1] = some ([1, 1], [0, 0])

/-! ## test_basis.py 151-165, `test_index_superindex_conversion` -/

/-- The round trip for every superindex below `n`. -/
def sanityRoundTrip (shape : List ℤ) (n : ℕ) : Bool :=
  (List.range n).all fun i : ℕ =>
    decide (LatticeBasis.getCellSuperindex (LatticeBasis.getCellIndex (i : ℤ) shape) shape = (i : ℤ))

#guard sanityRoundTrip [10] 10
#guard sanityRoundTrip [10, 20] 200
#guard sanityRoundTrip [10, 20, 30] 6000

end Lattpy

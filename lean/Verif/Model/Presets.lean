import Verif.Model.Basis

/-!
# Model of the preset bases of `lattpy/basis.py`

The class methods of lines 101-157.  Each calls the constructor with fixed vectors (rows); the
keyword arguments are only used by subclasses and not modelled.
-/

set_option autoImplicit false

namespace Lattpy

open Matrix

namespace LatticeBasis

/-- `chain(a)`, basis.py 101-104: the number `a` becomes a 1×1 matrix (line 95). -/
noncomputable def chain (a : ℝ) : Except PyErr (LatticeBasis 1 ℝ) := init !![a]

/-- `square(a)`, basis.py 106-109. -/
noncomputable def square (a : ℝ) : Except PyErr (LatticeBasis 2 ℝ) :=
  init (a • (1 : Matrix (Fin 2) (Fin 2) ℝ))

/-- `rectangular(a1, a2)`, basis.py 111-114. -/
noncomputable def rectangular (a1 a2 : ℝ) : Except PyErr (LatticeBasis 2 ℝ) :=
  init !![a1, 0; 0, a2]

/-- `oblique(alpha, a1, a2)`, basis.py 116-120 (`alpha` in radians). -/
noncomputable def oblique (alpha a1 a2 : ℝ) : Except PyErr (LatticeBasis 2 ℝ) :=
  init !![a1, 0; a2 * Real.cos alpha, a2 * Real.sin alpha]

/-- `hexagonal(a)`, basis.py 122-126. -/
noncomputable def hexagonal (a : ℝ) : Except PyErr (LatticeBasis 2 ℝ) :=
  init ((a / 2) • !![3, Real.sqrt 3; 3, -Real.sqrt 3])

/-- `hexagonal3d(a, az)`, basis.py 128-134: the factor `a / 2` multiplies `az` as well. -/
noncomputable def hexagonal3d (a az : ℝ) : Except PyErr (LatticeBasis 3 ℝ) :=
  init ((a / 2) • !![3, Real.sqrt 3, 0; 3, -Real.sqrt 3, 0; 0, 0, az])

/-- `sc(a)`, basis.py 136-139. -/
noncomputable def sc (a : ℝ) : Except PyErr (LatticeBasis 3 ℝ) :=
  init (a • (1 : Matrix (Fin 3) (Fin 3) ℝ))

/-- `fcc(a)`, basis.py 141-145. -/
noncomputable def fcc (a : ℝ) : Except PyErr (LatticeBasis 3 ℝ) :=
  init ((a / 2) • !![1, 1, 0; 1, 0, 1; 0, 1, 1])

/-- `bcc(a)`, basis.py 147-151. -/
noncomputable def bcc (a : ℝ) : Except PyErr (LatticeBasis 3 ℝ) :=
  init ((a / 2) • !![1, 1, 1; 1, -1, 1; -1, 1, 1])

/-- `hypercubic(dim, a)`, basis.py 153-157. -/
noncomputable def hypercubic (d : ℕ) (a : ℝ) : Except PyErr (LatticeBasis d ℝ) :=
  init (a • (1 : Matrix (Fin d) (Fin d) ℝ))

end LatticeBasis

end Lattpy

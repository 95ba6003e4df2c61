import Verif.Model.Utils

/-! Specification vocabulary for the properties of `utils.py`. -/

set_option autoImplicit false

namespace Lattpy

/-- The eight integer types of NumPy. -/
def numpyIntTypes : List IntType :=
  [⟨false, 8⟩, ⟨false, 16⟩, ⟨false, 32⟩, ⟨false, 64⟩,
   ⟨true, 8⟩, ⟨true, 16⟩, ⟨true, 32⟩, ⟨true, 64⟩]

end Lattpy

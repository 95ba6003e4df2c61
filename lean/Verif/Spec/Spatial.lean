import Verif.Model.Spatial

/-! Specification vocabulary for the properties of `spatial.py`. -/

set_option autoImplicit false

namespace Lattpy

/-- Lexicographic order of integer vectors. -/
def LexLt {d : ℕ} (a b : Fin d → ℤ) : Prop := ∃ i, (∀ j < i, a j = b j) ∧ a i < b i

end Lattpy

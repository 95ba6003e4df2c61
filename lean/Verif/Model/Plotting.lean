import Verif.Model.Structure

/-!
# Model of `connection_color_array` of `lattpy/plotting.py` (the rest of the file draws)
-/

set_option autoImplicit false

namespace Lattpy

variable {C : Type*}

/-- `t[i][j] = c` for positions in range. -/
def setCell (t : List (List C)) (i j : ℕ) (c : C) : List (List C) :=
  t.modify i fun r => r.set j c

/-- The loop of `connection_color_array`, plotting.py 612-614; list indices may be negative,
`IndexError` outside of the table. -/
def colorLoop (n : ℕ) : List (List C) → List (ℤ × ℤ × C) → Except PyErr (List (List C))
  | t, [] => .ok t
  | t, (a1, a2, c) :: l => match pyIdx n a1, pyIdx n a2 with
    | some i, some j => colorLoop n (setCell (setCell t i j c) j i c) l
    | _, _ => .error .index

/-- `connection_color_array(num_base, default, colors)`, plotting.py 584-615. -/
def connectionColorArray (numBase : ℕ) (default : C) (colors : Option (List (ℤ × ℤ × C))) :
    Except PyErr (List (List C)) :=
  let t := List.replicate numBase (List.replicate numBase default)
  match colors with
  | none => .ok t
  | some l => colorLoop numBase t l

end Lattpy

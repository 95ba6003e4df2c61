import Verif.Model.Structure

/-!
# The positions of the base atoms by atom

`LatticeStructure.get_base_atom_dict`, structure.py 880-915.
-/

namespace Lattpy

/-- An entry of the dictionary: a position, or the object array `array([pos, 0], dtype=object)` that
older NumPy versions make of a ragged list. -/
inductive BaseEntry (d : ℕ) (K : Type*) where
  | pos (p : Vec d K)
  | ragged (p : Vec d K)

/-- A dictionary with atoms as keys, in the order of insertion. -/
abbrev AtomDict (d : ℕ) (K : Type*) := List (Atom × List (BaseEntry d K))

namespace AtomDict
variable {d : ℕ} {K : Type*}

/-- `v in D.keys()`: strings are compared with the keys by `Atom.__eq__` (atom.py 147-148; equal
strings have equal hashes); no other value equals an atom. -/
def hasName (D : AtomDict d K) (v : PyVal) : Bool := match v with
  | .str n => D.any fun e => Session.eqStr e.1 n
  | _ => false

/-- Where the dictionary finds the atom `b`: equal hash, and the same object or equal to it. -/
def find (h : String → ℤ) (s : Session) (D : AtomDict d K) (b : Atom) : Except PyErr (Option ℕ) :=
  findFirst (fun e => if Session.hash h e.1 = Session.hash h b then s.same e.1 b else .ok false) D

/-- `D[b].append(x)`. -/
def append (h : String → ℤ) (s : Session) (D : AtomDict d K) (b : Atom) (x : BaseEntry d K) :
    Except PyErr (AtomDict d K) :=
  match D.find h s b with
  | .error e => .error e
  | .ok none => .error .key
  | .ok (some i) => .ok (D.modify i fun e => (e.1, e.2 ++ [x]))

/-- `D[b] = [x]`: an existing key is kept. -/
def assign (h : String → ℤ) (s : Session) (D : AtomDict d K) (b : Atom) (x : BaseEntry d K) :
    Except PyErr (AtomDict d K) :=
  match D.find h s b with
  | .error e => .error e
  | .ok none => .ok (D ++ [(b, [x])])
  | .ok (some i) => .ok (D.modify i fun e => (e.1, [x]))

end AtomDict

namespace Structure
variable {d : ℕ} {K : Type*}

/-- `pos = np.array([pos, 0])` in one dimension, structure.py 908-909: `pos` is an array of one
component, so the list is ragged; NumPy 1.24 and later raise `ValueError` (`strict`). -/
def atomEntry (strict atleast2d : Bool) (p : Vec d K) : Except PyErr (BaseEntry d K) :=
  if atleast2d && decide (d = 1) then
    if strict then .error .value else .ok (.ragged p)
  else .ok (.pos p)

/-- One round of the loop, structure.py 907-914. -/
def atomDictStep (h : String → ℤ) (s : Session) (strict atleast2d : Bool) (D : AtomDict d K)
    (e : Atom × Vec d K) : Except PyErr (AtomDict d K) :=
  match atomEntry strict atleast2d e.2 with
  | .error err => .error err
  | .ok x => if D.hasName (s.nameAttr e.1) then D.append h s e.1 x else D.assign h s e.1 x

/-- `get_base_atom_dict(atleast2d)`, structure.py 880-915. -/
def baseAtomDict (h : String → ℤ) (s : Session) (strict : Bool) (S : Structure d K)
    (atleast2d : Bool) : Except PyErr (AtomDict d K) :=
  (S.atoms.zip S.positions).foldlM (atomDictStep h s strict atleast2d) []

end Structure

end Lattpy

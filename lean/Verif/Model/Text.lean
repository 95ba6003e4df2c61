import Verif.Model.Lattice
import Verif.Model.Plot

/-!
# Text of atoms; text, hash and equality of structures

`Atom.__repr__` (atom.py 150-155) and `LatticeStructure.dumps`, `__hash__`, `__eq__`
(structure.py 1367-1379, 1413-1421).  The same methods of `Lattice` are in `Model/Lattice.lean`.
-/

set_option autoImplicit false

namespace Lattpy

/-- `str(v)` of the attribute `self.index`, atom.py 61-63: the creation number, unless the atom has
a parameter called `index` (atom.py 116-122). -/
def Session.indexText (str : PyVal → String) (s : Session) (a : Atom) : String :=
  match s.attrParam a "index" with
  | some v => str v
  | none => Nat.repr a.index

/-- `Atom.__repr__()`, atom.py 150-155.  `str` turns a parameter value into text (`f"{v}"`). -/
def Session.reprAtom (str : PyVal → String) (s : Session) (a : Atom) : String :=
  let paramstr := ", ".intercalate (((s.params a).filter fun p => p.2.truthy).map
    fun p => p.1 ++ "=" ++ str p.2)
  let argstr := if paramstr = "" then a.name else a.name ++ ", " ++ paramstr
  "Atom(" ++ argstr ++ ", " ++ s.indexText str a ++ ")"

namespace World

variable {d : ℕ} {K : Type*}

/-- `LatticeStructure.dumps()`, structure.py 1367-1379, of `todict()` (structure.py 1331-1344).
Iterating over the connections of a structure without atoms (`None`) raises `TypeError`. -/
def dumps (T : Lattice.TextEnv d K) (w : World d K) : Except PyErr String :=
  match w.struct.conn with
  | none => .error .type
  | some c => .ok ("\n".intercalate [
      Lattice.dumpLine "vectors" ((List.finRange d).map fun i => T.vec (w.struct.basis.V · i)),
      Lattice.dumpLine "atoms" (w.struct.atoms.map (T.atom w.session)),
      Lattice.dumpLine "positions" (w.struct.positions.map T.vec),
      Lattice.dumpLine "connections" ((List.range c.size).map fun i =>
        T.conn ((List.range c.size).map (c.entry i)))])

/-- `LatticeStructure.__hash__()`, structure.py 1413-1417. -/
def hash (T : Lattice.TextEnv d K) (w : World d K) : Except PyErr ℕ :=
  match w.dumps T with
  | .error e => .error e
  | .ok s => .ok (T.md5 s)

/-- `self == other` for structures, structure.py 1419-1420. -/
def eq (T : Lattice.TextEnv d K) (w v : World d K) : Except PyErr Bool :=
  match w.hash T, v.hash T with
  | .error e, _ => .error e
  | .ok _, .error e => .error e
  | .ok a, .ok b => .ok (decide (a = b))

end World

end Lattpy

import Verif.Model.Presets
import Verif.Model.Lattice
import Verif.Model.Real

/-!
# Model of the preset lattices of `lattpy/__init__.py`

Each function constructs a basis, then calls configuration methods; an exception of any of them is
the exception of the function.  The session is the one in which the function is called.  The
lattices are not built yet (except by `finite_hypercubic`), so the result is a structure with its
session.
-/

set_option autoImplicit false

namespace Lattpy

open Structure

/-- The `atom` argument of the presets: `None`, a name or an `Atom`. -/
inductive AtomSpec where
  | none
  | name (n : String)
  | obj (a : Atom)

/-- `add_atom(atom=...)` without further keyword arguments, structure.py 250-251: anything but an
`Atom` is the name of a new one, with the defaults of atom.py 41-48 (`radius=0.2`, `color=None`,
`weight=1.0`). -/
def AtomSpec.arg : AtomSpec → AtomArg
  | .none => .new Option.none (.num (1 / 5)) .none (.num 1) []
  | .name n => .new (some n) (.num (1 / 5)) .none (.num 1) []
  | .obj a => .obj a

namespace Preset
variable {d : ℕ}

/-- Configuration calls one after the other, ending with the first exception. -/
noncomputable def calls (env : Env ℝ) : World d ℝ → List (World.Op ℝ) → Except PyErr (World d ℝ)
  | w, [] => .ok w
  | w, op :: ops => match w.call env op with
    | (w', .ok _) => calls env w' ops
    | (_, .error e) => .error e

/-- Construct a basis and configure the lattice. -/
noncomputable def configure (env : Env ℝ) (s : Session) (b : Except PyErr (LatticeBasis d ℝ))
    (ops : List (World.Op ℝ)) : Except PyErr (World d ℝ) :=
  match b with
  | .error e => .error e
  | .ok b => calls env ⟨s, ofBasis b⟩ ops

/-- `latt.add_atom(atom=atom)`, `latt.add_connections(neighbors)`. -/
noncomputable def oneAtom (atom : AtomSpec) (neighbors : ℕ) : List (World.Op ℝ) :=
  [.addAtom none atom.arg false 0, .addConnections neighbors true]

/-- `simple_chain(a, atom, neighbors)`, `__init__.py` 77-107. -/
noncomputable def simpleChain (env : Env ℝ) (s : Session) (a : ℝ) (atom : AtomSpec)
    (neighbors : ℕ) : Except PyErr (World 1 ℝ) :=
  configure env s (LatticeBasis.chain a) (oneAtom atom neighbors)

/-- `alternating_chain(a, atom1, atom2, x0, neighbors)`, `__init__.py` 110-146; the numbers are
made arrays by `np.atleast_1d` (structure.py 238). -/
noncomputable def alternatingChain (env : Env ℝ) (s : Session) (a : ℝ) (atom1 atom2 : AtomSpec)
    (x0 : ℝ) (neighbors : ℕ) : Except PyErr (World 1 ℝ) :=
  configure env s (LatticeBasis.chain a)
    [.addAtom (some [(0 + x0) * a]) atom1.arg false 0,
     .addAtom (some [(1 / 2 + x0) * a]) atom2.arg false 0, .addConnections neighbors true]

/-- `simple_square(a, atom, neighbors)`, `__init__.py` 154-184. -/
noncomputable def simpleSquare (env : Env ℝ) (s : Session) (a : ℝ) (atom : AtomSpec)
    (neighbors : ℕ) : Except PyErr (World 2 ℝ) :=
  configure env s (LatticeBasis.square a) (oneAtom atom neighbors)

/-- `simple_rectangular(a1, a2, atom, neighbors)`, `__init__.py` 187-219. -/
noncomputable def simpleRectangular (env : Env ℝ) (s : Session) (a1 a2 : ℝ) (atom : AtomSpec)
    (neighbors : ℕ) : Except PyErr (World 2 ℝ) :=
  configure env s (LatticeBasis.rectangular a1 a2) (oneAtom atom neighbors)

/-- `simple_hexagonal(a, atom, neighbors)`, `__init__.py` 222-252. -/
noncomputable def simpleHexagonal (env : Env ℝ) (s : Session) (a : ℝ) (atom : AtomSpec)
    (neighbors : ℕ) : Except PyErr (World 2 ℝ) :=
  configure env s (LatticeBasis.hexagonal a) (oneAtom atom neighbors)

/-- The calls of `honeycomb`, `__init__.py` 281-284 (one atom object for both sites; the default
of `num_distances` is 1). -/
noncomputable def honeycombOps (a : ℝ) (at' : Atom) : List (World.Op ℝ) :=
  [.addAtom (some [0, 0]) (.obj at') false 0, .addAtom (some [a, 0]) (.obj at') false 0,
   .addConnection (.num 0) (.num 1) 1 true]

/-- `Atom(atom, color="C0")`, `__init__.py` 279-280. -/
def honeycombName : AtomSpec → Option String
  | .name n => some n
  | _ => none

/-- `honeycomb(a, atom)`, `__init__.py` 255-285. -/
noncomputable def honeycomb (env : Env ℝ) (s : Session) (a : ℝ) (atom : AtomSpec) :
    Except PyErr (World 2 ℝ) :=
  match atom with
  | .obj at' => configure env s (LatticeBasis.hexagonal a) (honeycombOps a at')
  | other => match s.create (honeycombName other) (.num (1 / 5)) (.str "C0") (.num 1) [] with
    | .error e => .error e
    | .ok s' => match s'.atoms.getLast? with
      | none => .error .assertion
      | some at' => configure env s' (LatticeBasis.hexagonal a) (honeycombOps a at')

/-- The calls of `graphene`, `__init__.py` 312-314. -/
noncomputable def grapheneOps (a : ℝ) (at1 at2 : Atom) : List (World.Op ℝ) :=
  [.addAtom (some [0, 0]) (.obj at1) false 0, .addAtom (some [a, 0]) (.obj at2) false 0,
   .addConnection (.obj at1) (.obj at2) 1 true]

/-- `graphene(a)`, `__init__.py` 288-315. -/
noncomputable def graphene (env : Env ℝ) (s : Session) (a : ℝ) : Except PyErr (World 2 ℝ) :=
  match s.create (some "C1") (.num (1 / 5)) .none (.num 1) [] with
  | .error e => .error e
  | .ok s1 => match s1.create (some "C2") (.num (1 / 5)) .none (.num 1) [] with
    | .error e => .error e
    | .ok s2 => match s1.atoms.getLast?, s2.atoms.getLast? with
      | some at1, some at2 => configure env s2 (LatticeBasis.hexagonal a) (grapheneOps a at1 at2)
      | _, _ => .error .assertion

/-- `simple_cubic(a, atom, neighbors)`, `__init__.py` 323-353. -/
noncomputable def simpleCubic (env : Env ℝ) (s : Session) (a : ℝ) (atom : AtomSpec)
    (neighbors : ℕ) : Except PyErr (World 3 ℝ) :=
  configure env s (LatticeBasis.sc a) (oneAtom atom neighbors)

/-- `nacl_structure(a, atom1, atom2, neighbors)`, `__init__.py` 356-390. -/
noncomputable def naclStructure (env : Env ℝ) (s : Session) (a : ℝ) (atom1 atom2 : AtomSpec)
    (neighbors : ℕ) : Except PyErr (World 3 ℝ) :=
  configure env s (LatticeBasis.fcc a)
    [.addAtom (some [0, 0, 0]) atom1.arg false 0,
     .addAtom (some [a / 2, a / 2, a / 2]) atom2.arg false 0, .addConnections neighbors true]

/-- `finite_hypercubic(s, a, atom, neighbors, primitive, periodic)`, `__init__.py` 398-452, for a
shape of dimension `d` (a number is a one-element sequence, lines 443-444; the dimension is the
length of the sequence or that of the shape object, line 446). -/
noncomputable def finiteHypercubic (env : Env ℝ) (s : Session) (shape : ShapeArg d ℝ) (a : ℝ)
    (atom : AtomSpec) (neighbors : ℕ) (primitive : Bool) (periodic : Option PAxis) :
    Except PyErr (Lattice d ℝ) :=
  match configure env s (LatticeBasis.hypercubic d a) (oneAtom atom neighbors) with
  | .error e => .error e
  | .ok w => match (Lattice.ofWorld w).build env
      { shape := shape
        primitive := primitive
        periodic := periodic } with
    | (L, .ok _) => .ok L
    | (_, .error e) => .error e

end Preset

end Lattpy

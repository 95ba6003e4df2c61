import Verif.Model.Lattice

/-!
# Deep copies of structures and lattices

`LatticeStructure.copy` (structure.py 1327-1329) and `Lattice.copy` (lattice.py 1093-1095) call
`deepcopy`.  `Atom` has slots (atom.py 39) and neither `__deepcopy__` nor `__getstate__`, so
`deepcopy` makes an atom without calling `Atom.__init__`: the slots are copied one by one, the number
`_index` is not taken from `Atom._counter`, and the dictionary `_params` is copied.  The memo of
`deepcopy` makes one object of atoms that are one object.  Reading a lattice written with `dump`
(structure.py 1381-1411, lattice.py 1123-1152) does the same by `pickle`.

Simplified: the values of the parameters are taken as immutable, so that the copied dictionary holds
the same values.
-/

set_option autoImplicit false

namespace Lattpy

namespace Session

/-- `deepcopy(atom)`: a new object and a new dictionary with the same contents (slots of
atom.py 39). -/
def deepcopyAtom (s : Session) (a : Atom) : Session × Atom :=
  ({ s with dicts := s.dicts ++ [s.params a]
            atoms := s.atoms ++ [{ a with ref := s.dicts.length }] },
    { a with ref := s.dicts.length })

/-- `deepcopy` of the list `_atoms` (structure.py 107) with the memo of the atoms copied so far. -/
def deepcopyAtoms (s : Session) (memo : List (Atom × Atom)) : List Atom → Session × List Atom
  | [] => (s, [])
  | a :: l => match memo.lookup a with
    | some b =>
      let r := deepcopyAtoms s memo l
      (r.1, b :: r.2)
    | none =>
      let t := s.deepcopyAtom a
      let r := deepcopyAtoms t.1 ((a, t.2) :: memo) l
      (r.1, t.2 :: r.2)

end Session

variable {d : ℕ} {K : Type*}

/-- `LatticeStructure.copy()`, structure.py 1327-1329: the copy, in the session in which its atoms
exist.  Arrays of numbers are values of the model, their copies are the same values. -/
def World.copy (w : World d K) : World d K :=
  let r := w.session.deepcopyAtoms [] w.struct.atoms
  ⟨r.1, { w.struct with atoms := r.2 }⟩

/-- `Lattice.copy()`, lattice.py 1093-1095, with the copy of the data of data.py 268-270. -/
def Lattice.copy (L : Lattice d K) : Lattice d K := { L with world := L.world.copy }

/-- The same lattice in a later state of the session. -/
def Lattice.within (L : Lattice d K) (s : Session) : Lattice d K :=
  { L with world := { L.world with session := s } }

/-- What can be done with a lattice and its atoms: calls (structure.py 175-448, 534-619, lattice.py 396-485
and 645-701), `append`, `extend`, `repeat` (lattice.py 841-996), and changes of the parameters of its atom
number `i` (atom.py 108-130). -/
inductive Lattice.Act (d : ℕ) (K : Type*) where
  | call (op : Lattice.Op d K)
  | append (M : Lattice d K) (ax : ℕ) (side : Bool) (sortAx : Option (Fin (d + 1))) (rev : Bool)
  | extend (size : K) (ax : ℕ) (side : Bool) (sortAx : Option (Fin (d + 1))) (rev : Bool)
  | repeat (num ax : ℕ) (side : Bool) (sortAx : Option (Fin (d + 1))) (rev : Bool)
  | setItem (i : ℕ) (key : String) (v : PyVal)
  | delItem (i : ℕ) (key : String)
  | setAttr (i : ℕ) (key : String) (v : PyVal)

/-- One such step, which may raise (`IndexError` for an atom that does not exist). -/
def Lattice.act [Field K] [LinearOrder K] [FloorRing K] [HasSqrt K] (env : Env K) (L : Lattice d K) :
    Lattice.Act d K → Outcome (Lattice d K) Unit
  | .call op => L.call env op
  | .append M ax side sortAx rev => L.append env M ax side sortAx rev
  | .extend size ax side sortAx rev => L.extend env size ax side sortAx rev
  | .repeat num ax side sortAx rev => L.repeat env num ax side sortAx rev
  | .setItem i key v => match L.struct.atoms[i]? with
    | some a => (L.within (L.world.session.setItem a key v), .ok ())
    | none => (L, .error .index)
  | .delItem i key => match L.struct.atoms[i]? with
    | some a => match L.world.session.delItem a key with
      | .ok s => (L.within s, .ok ())
      | .error e => (L, .error e)
    | none => (L, .error .index)
  | .setAttr i key v => match L.struct.atoms[i]? with
    | some a => match L.world.session.setAttr a key v with
      | .ok s => (L.within s, .ok ())
      | .error e => (L, .error e)
    | none => (L, .error .index)

/-- Two lattices of one session. -/
structure LatticePair (d : ℕ) (K : Type*) where
  session : Session
  fst : Lattice d K
  snd : Lattice d K

namespace LatticePair

/-- `copy = latt.copy()`. -/
def ofCopy (L : Lattice d K) : LatticePair d K := ⟨L.copy.world.session, L, L.copy⟩

/-- What can be done with the second lattice: a call, and changes of the parameters of its atom
number `i`. -/
inductive Op (d : ℕ) (K : Type*) where
  | call (op : Lattice.Op d K)
  | setItem (i : ℕ) (key : String) (v : PyVal)
  | delItem (i : ℕ) (key : String)
  | setAttr (i : ℕ) (key : String) (v : PyVal)

variable [Field K] [LinearOrder K] [FloorRing K] [HasSqrt K]

/-- One step with the second lattice; a step that raises before changing anything, or addresses an
atom that does not exist, does nothing. -/
def step (env : Env K) (p : LatticePair d K) : Op d K → LatticePair d K
  | .call op =>
    let r := (p.snd.within p.session).call env op
    ⟨r.1.world.session, p.fst, r.1⟩
  | .setItem i key v => match p.snd.struct.atoms[i]? with
    | some a => { p with session := p.session.setItem a key v }
    | none => p
  | .delItem i key => match p.snd.struct.atoms[i]? with
    | some a => match p.session.delItem a key with
      | .ok s => { p with session := s }
      | .error _ => p
    | none => p
  | .setAttr i key v => match p.snd.struct.atoms[i]? with
    | some a => match p.session.setAttr a key v with
      | .ok s => { p with session := s }
      | .error _ => p
    | none => p

/-- A history of steps with the second lattice. -/
def run (env : Env K) (p : LatticePair d K) (ops : List (Op d K)) : LatticePair d K :=
  ops.foldl (step env) p

/-- The first lattice, as seen at the end. -/
def seenFst (p : LatticePair d K) : Lattice d K := p.fst.within p.session

/-- The second lattice. -/
def seenSnd (p : LatticePair d K) : Lattice d K := p.snd.within p.session

/-- The pair with the lattices exchanged. -/
def swap (p : LatticePair d K) : LatticePair d K := ⟨p.session, p.snd, p.fst⟩

end LatticePair

end Lattpy

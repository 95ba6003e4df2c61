import Verif.Np
import Mathlib.Logic.Function.Basic

/-!
# Model of `lattpy/atom.py`

Atoms are objects owning a mutable dictionary, so the model has a small store
(`Session`): the class-wide counter, the dictionaries and the atom objects created so far;
an atom refers to its dictionary by address.
-/

set_option autoImplicit false

namespace Lattpy

/-- Values of atom parameters. -/
inductive PyVal where
  | none
  | str (s : String)
  | num (q : ℚ)
  | obj (id : ℕ)
  deriving DecidableEq, Repr

/-! ## Python dictionaries (insertion ordered) -/

abbrev PyDict := List (String × PyVal)

namespace PyDict

/-- `d[key]` (`none`: `KeyError`). -/
def get? (d : PyDict) (key : String) : Option PyVal := List.lookup key d

/-- `list(d)`. -/
def keys (d : PyDict) : List String := d.map Prod.fst

/-- `d[key] = value`: an existing key keeps its place, a new one is appended. -/
def set : PyDict → String → PyVal → PyDict
  | [], key, v => [(key, v)]
  | (k, w) :: d, key, v => if k = key then (k, v) :: d else (k, w) :: set d key v

/-- `del d[key]`, `KeyError` for a missing key. -/
def del (d : PyDict) (key : String) : Except PyErr PyDict :=
  if (d.get? key).isSome then .ok (d.filter fun p => decide (p.1 ≠ key)) else .error .key

end PyDict

/-- The first element passing a test that may raise (`list.index`, dictionary lookup). -/
def findFirst {α : Type*} (p : α → Except PyErr Bool) : List α → Except PyErr (Option ℕ)
  | [] => .ok none
  | x :: xs => match p x with
    | .error e => .error e
    | .ok true => .ok (some 0)
    | .ok false => match findFirst p xs with
      | .error e => .error e
      | .ok r => .ok (r.map (· + 1))

/-- The slots of an atom object (atom.py 39); `_params` is the address of its dictionary. -/
structure Atom where
  index : ℕ
  name : String
  weight : PyVal
  ref : ℕ
  deriving DecidableEq, Repr

/-- The state of a Python session: `Atom._counter` (atom.py 37), the parameter
dictionaries, the atom objects created so far. -/
structure Session where
  counter : ℕ
  dicts : List PyDict
  atoms : List Atom

namespace Session

/-- A fresh session. -/
def empty : Session := ⟨0, [], []⟩

/-- `atom._params`. -/
def params (s : Session) (a : Atom) : PyDict := (s.dicts[a.ref]?).getD []

/-- `key.startswith("_")`. -/
def isPrivate (key : String) : Bool := key.toList.head? == some '_'

/-- The named parameters of `Atom.__init__` (atom.py 41-48), which cannot be passed through
`**kwargs`. -/
def reserved : List String := ["self", "name", "radius", "color", "weight"]

/-- `Atom(name, radius, color, weight, **kwargs)`, atom.py 41-54: takes the next number,
creates a new dictionary.  (Keyword arguments cannot repeat and cannot be named like the
parameters: `TypeError` when the call is made, before the body runs.) -/
def create (s : Session) (name : Option String) (radius color weight : PyVal) (kwargs : PyDict) :
    Except PyErr Session :=
  if kwargs.keys.any (fun k => decide (k ∈ reserved)) || decide (¬ kwargs.keys.Nodup) then
    .error .type
  else
    let name' := match name with
      | none => "A"
      | some n => if n = "" then "A" else n
    .ok {
      counter := s.counter + 1
      dicts := s.dicts ++ [("color", color) :: ("radius", radius) :: kwargs]
      atoms := s.atoms ++ [⟨s.counter, name', weight, s.dicts.length⟩] }

/-- Attribute access `atom.name`, atom.py 116-122 with the property of line 66: a parameter
called `name` shadows the property. -/
def nameAttr (s : Session) (a : Atom) : PyVal :=
  match (s.params a).get? "name" with
  | some v => v
  | none => .str a.name

/-- Attribute access `atom.weight`, atom.py 116-122 and 71-74. -/
def weightAttr (s : Session) (a : Atom) : PyVal :=
  match (s.params a).get? "weight" with
  | some v => v
  | none => a.weight

/-- `getattr(atom, key)`, atom.py 116-122, as a parameter value: `some v` if the parameter
dictionary answers, `none` if the lookup goes to the class/slots (there it may find a method
or raise `AttributeError`). -/
def attrParam (s : Session) (a : Atom) (key : String) : Option PyVal :=
  if !isPrivate key && ((s.params a).get? key).isSome then (s.params a).get? key else none

/-- `atom[key]`, atom.py 104-106. -/
def getItem (s : Session) (a : Atom) (key : String) : Except PyErr PyVal :=
  match (s.params a).get? key with
  | some v => .ok v
  | none => .error .key

/-- `atom.get(key, default)`, atom.py 86-90.  The method itself is found by attribute access:
a parameter called `get` shadows it and the call raises `TypeError`. -/
def get (s : Session) (a : Atom) (key : String) (default : PyVal) : Except PyErr PyVal :=
  match s.attrParam a "get" with
  | some _ => .error .type
  | none => match s.getItem a key with
    | .ok v => .ok v
    | .error _ => .ok default

/-- `len(atom)`, atom.py 96-98. -/
def len (s : Session) (a : Atom) : ℕ := (s.params a).length

/-- `list(atom)`, atom.py 100-102. -/
def iter (s : Session) (a : Atom) : List String := (s.params a).keys

/-- Replace the dictionary of an atom (mutation of the object `_params` refers to). -/
def setParams (s : Session) (a : Atom) (d : PyDict) : Session :=
  { s with dicts := s.dicts.set a.ref d }

/-- `atom[key] = value`, atom.py 108-110. -/
def setItem (s : Session) (a : Atom) (key : String) (v : PyVal) : Session :=
  s.setParams a ((s.params a).set key v)

/-- `del atom[key]`, atom.py 112-114. -/
def delItem (s : Session) (a : Atom) (key : String) : Except PyErr Session :=
  match (s.params a).del key with
  | .ok d => .ok (s.setParams a d)
  | .error e => .error e

/-- `atom.key = value`, atom.py 124-130, for keys that are not slots: sets an existing
parameter; otherwise there is no such slot (`AttributeError`). -/
def setAttr (s : Session) (a : Atom) (key : String) (v : PyVal) : Except PyErr Session :=
  if !isPrivate key && ((s.params a).get? key).isSome then .ok (s.setItem a key v)
  else .error .attribute

/-- `a == b` for two atoms, atom.py 144-146 and 92-94: `self._name == other.name`.  The method
`is_identical` is found by attribute access: a parameter with this name shadows it and the comparison
raises `TypeError`. -/
def eq (s : Session) (a b : Atom) : Except PyErr Bool :=
  match s.attrParam a "is_identical" with
  | some _ => .error .type
  | none => .ok (decide (PyVal.str a.name = s.nameAttr b))

/-- The test of `list.index` and of dictionary lookups: the same object, or equal to it. -/
def same (s : Session) (a b : Atom) : Except PyErr Bool :=
  if a = b then .ok true else s.eq a b

/-- `atom == "name"`, atom.py 147-148 (also the reflected `"name" == atom`). -/
def eqStr (a : Atom) (n : String) : Bool := decide (a.name = n)

/-- `hash(atom)`, atom.py 132-134, for the hash function `h` of strings. -/
def hash (h : String → ℤ) (a : Atom) : ℤ := h a.name

/-- `atom.copy()`, atom.py 82-84: `Atom(self.name, weight=self.weight, **params.copy())`.
The call raises `TypeError` when a parameter is called like an argument already passed
(`self`, `name`, `weight`), or `copy`, which shadows the method; missing `radius`/`color` take their
defaults.  `self.name` and `self.weight` are then the slots. -/
def copy (s : Session) (a : Atom) : Except PyErr Session :=
  let p := s.params a
  if (s.attrParam a "copy").isSome || (p.get? "self").isSome || (p.get? "name").isSome ||
      (p.get? "weight").isSome then
    .error .type
  else
    s.create (some a.name) ((p.get? "radius").getD (.num (1 / 5))) ((p.get? "color").getD .none)
      a.weight (p.filter fun q => decide (q.1 ∉ ["radius", "color"]))

/-- `atom.dict()`, atom.py 76-80: the slots `_index` and `_name`, updated with the parameters
(`dict.update` sets them one by one).  A parameter called `dict` shadows the method (`TypeError`). -/
def dict (s : Session) (a : Atom) : Except PyErr PyDict :=
  match s.attrParam a "dict" with
  | some _ => .error .type
  | none => .ok ((s.params a).foldl (fun d p => d.set p.1 p.2)
      [("index", .num a.index), ("name", .str a.name)])

/-- One step of a session; atoms are addressed by creation number. -/
inductive Op where
  | create (name : Option String) (radius color weight : PyVal) (kwargs : PyDict)
  | copy (i : ℕ)
  | setItem (i : ℕ) (key : String) (v : PyVal)
  | delItem (i : ℕ) (key : String)
  | setAttr (i : ℕ) (key : String) (v : PyVal)

/-- Execute one step; a step that raises leaves the state unchanged (the exceptions above are
raised before anything is modified), a step on an atom that does not exist does nothing. -/
def step (s : Session) : Op → Session
  | .create n r c w k => match s.create n r c w k with | .ok t => t | .error _ => s
  | .copy i => match s.atoms[i]? with
    | some a => match s.copy a with | .ok t => t | .error _ => s
    | none => s
  | .setItem i key v => match s.atoms[i]? with
    | some a => s.setItem a key v
    | none => s
  | .delItem i key => match s.atoms[i]? with
    | some a => match s.delItem a key with | .ok t => t | .error _ => s
    | none => s
  | .setAttr i key v => match s.atoms[i]? with
    | some a => match s.setAttr a key v with | .ok t => t | .error _ => s
    | none => s

/-- Execute a history from a fresh session. -/
def run (ops : List Op) : Session := ops.foldl step empty

end Session

end Lattpy

import Verif.Np

/-!
# Model of `lattpy/utils.py`
-/

set_option autoImplicit false

namespace Lattpy

/-! ## min_dtype -/

/-- A NumPy integer type. -/
structure IntType where
  signed : Bool
  bits : ℕ
  deriving DecidableEq, Repr

/-- Smallest storable value. -/
def IntType.lo (t : IntType) : ℤ := if t.signed then -(2 ^ (t.bits - 1)) else 0

/-- Largest storable value. -/
def IntType.hi (t : IntType) : ℤ := if t.signed then 2 ^ (t.bits - 1) - 1 else 2 ^ t.bits - 1

/-- `t` can store `x`. -/
def IntType.holds (t : IntType) (x : ℤ) : Prop := t.lo ≤ x ∧ x ≤ t.hi

instance (t : IntType) (x : ℤ) : Decidable (t.holds x) := by
  unfold IntType.holds; infer_instance

/-- `np.min_scalar_type(a)` for an integer: the first of `uint8..uint64` (for `a ≥ 0`)
respectively `int8..int64` (for `a < 0`) that holds it; `none` is NumPy's `object` type. -/
def minScalarType (a : ℤ) : Option IntType :=
  let cands := [8, 16, 32, 64].map fun b => IntType.mk (decide (a < 0)) b
  cands.find? fun t => decide (t.holds a)

/-- `np.max` of a non-empty integer list (`0` for the empty list, on which NumPy raises;
`minDtype` treats that case separately). -/
def imax (l : List ℤ) : ℤ := l.tail.foldl max (l.headD 0)

/-- `np.min` of a non-empty integer list. -/
def imin (l : List ℤ) : ℤ := l.tail.foldl min (l.headD 0)

/-- `min_dtype(a, signed)`, utils.py 143-169, for (non-empty) integer input; the
intermediate arithmetic is exact (no overflow of the input's own type). -/
def minDtype (a : List ℤ) (signed : Bool) : Option IntType :=
  if signed then minScalarType (-(imax (a.map fun x => |x|)) - 1)
  else
    let amin := imin a
    let amax := imax a
    if amin < 0 then minScalarType (if |amin| ≤ amax then -amax - 1 else amin)
    else minScalarType amax

/-! ## create_lookup_table -/

/-- `create_lookup_table(array, dtype=np.uint8)`, utils.py 115-140, on a flattened array.
`values` are the sorted distinct entries; the loop writes `i`, stored in an unsigned type
of `bits` bits (wrapping), to all entries equal to the `i`-th value; entries start at 0. -/
def createLookupTable {α : Type*} [LinearOrder α] (array : List α) (bits : ℕ := 8) :
    List α × List ℕ :=
  let values := npUnique array
  let indices := values.zipIdx.foldl
    (fun idx p => List.zipWith (fun x k => if x = p.1 then p.2 % 2 ^ bits else k) array idx)
    (array.map fun _ => 0)
  (values, indices)

/-! ## chain -/

/-- The loop of `chain`, utils.py 195-197: `[items[i], items[i+1]]` for `i < len - 1`. -/
def chainPairs {α : Type*} (items : List α) : List (α × α) :=
  (List.range (items.length - 1)).filterMap fun i =>
    items[i]?.bind fun x => items[i + 1]?.map fun y => (x, y)

/-- `chain(items, cycle)`, utils.py 172-200; the closing pair of an empty sequence raises
`IndexError`. -/
def chain {α : Type*} (items : List α) (cycle : Bool := false) : Except PyErr (List (α × α)) :=
  let pairs := chainPairs items
  if cycle then
    match items.getLast?, items.head? with
    | some l, some f => .ok (pairs ++ [(l, f)])
    | _, _ => .error .index
  else .ok pairs

/-! ## frmt_num -/

/-- The prefixes tried by `frmt_num` (utils.py 221), in order. -/
def frmtPrefixes : List String := ["", "k", "M", "G", "T", "P", "E", "Z"]

/-- `frmt_num` (utils.py 203-225): the value that is printed and its prefix (the string
formatting `f"{num:.{dec}f}{prefix}{unit}"` follows in `frmtNumText`). -/
def frmtNum {K : Type*} [Field K] [LinearOrder K] (num div : K) :
    (prefixes : List String := frmtPrefixes) → K × String
  | [] => (num, "Y")
  | p :: ps => if |num| < div then (num, p) else frmtNum (num / div) div ps

/-- `frmt_bytes` (utils.py 228-230); the unit `iB` is appended to the prefix. -/
def frmtBytes {K : Type*} [Field K] [LinearOrder K] (num : K) : K × String :=
  let (v, p) := frmtNum num 1024
  (v, p ++ "iB")

/-- `frmt_num(num, dec, unit, div)` with the rounding of the format `.{dec}f` (utils.py 221-225): the
number that can be read in the text and the letters behind it.  (The digits of the number are not
modelled.) -/
def frmtNumText {K : Type*} [Field K] [LinearOrder K] [FloorRing K] (num : K) (dec : ℕ)
    (unit : String) (div : K) : K × String :=
  let (v, p) := frmtNum num div
  (npRound dec v, p ++ unit)

/-! ## errors -/

/-- The configuration error classes, utils.py 58-112, with the arguments of the constructors
that take any (rendered as strings); `base args` is `ConfigurationError(*args)` itself. -/
inductive ConfigError where
  | base (args : List String)
  | siteOccupied (atom pos : String)
  | noAtoms
  | notAnalyzed
  | noConnections
  | notBuilt

/-- `self.args` as passed to `super().__init__` by each class, utils.py 74-112. -/
def ConfigError.args : ConfigError → List String
  | .base args => args
  | .siteOccupied atom pos =>
      [s!"Can't add {atom} to lattice, position {pos} already occupied!"]
  | .noAtoms =>
      ["lattice doesn't contain any atoms use 'add_atom' to add an 'Atom'-object"]
  | .notAnalyzed =>
      ["lattice not analyzed",
       "call 'analyze' after adding atoms and connections or " ++
       "use the 'analyze' keyword of 'add_connection'"]
  | .noConnections =>
      ["base neighbors not configured",
       "call 'add_connection' after adding atoms or use the 'neighbors' keyword of 'add_atom'"]
  | .notBuilt =>
      ["lattice has not been built",
       "use the 'build' method to construct a finite size lattice model"]

/-- `ConfigurationError.msg`, utils.py 59-61: the first argument. -/
def ConfigError.msg (e : ConfigError) : Except PyErr String :=
  match e.args[0]? with
  | some msg => .ok msg
  | none => .error .index

/-- `ConfigurationError.hint`, utils.py 63-65: the second argument. -/
def ConfigError.hint (e : ConfigError) : Except PyErr String :=
  match e.args[1]? with
  | some hint => .ok hint
  | none => .error .index

/-- `ConfigurationError.__str__`, utils.py 67-71: unpacking `msg, hint = self.args` raises
`ValueError` unless there are exactly two arguments. -/
def ConfigError.str (e : ConfigError) : Except PyErr String :=
  match e.args with
  | [msg, hint] => .ok (if hint ≠ "" then msg ++ s!" ({hint})" else msg)
  | _ => .error .value

end Lattpy

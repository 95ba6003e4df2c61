import Verif.Model.Structure

/-!
# A structure and its restored copy

`todict` (structure.py 1331-1344) stores the array `_connections` itself, and `fromdict` (line 1363)
assigns this array to the new structure, so that both structures hold the same array.  The model of
`fromDict` in `Model/Structure` describes the values; here the two structures are kept together with
the information whether they still share the array.
-/

set_option autoImplicit false

namespace Lattpy

/-- A structure, the structure restored from its dictionary, and whether their attributes
`_connections` are the same array. -/
structure Twins (d : ℕ) (K : Type*) where
  session : Session
  orig : Structure d K
  copy : Structure d K
  shared : Bool

namespace Twins
variable {d : ℕ} {K : Type*} [Field K] [LinearOrder K] [FloorRing K] [HasSqrt K]

/-- `copy = LatticeStructure.fromdict(orig.todict())`, structure.py 1331-1365. -/
def restore (env : Env K) (w : World d K) : Except PyErr (Twins d K) :=
  match Structure.fromDict env w.struct.toDict with
  | .error e => .error e
  | .ok S => .ok ⟨w.session, w.struct, S, true⟩

/-- A call replaces the array `_connections` by a new one: `add_atom` in line 264, which is reached
if the position has been appended and the numbers of atoms and positions agree (lines 253-258).
All other calls write into the array (lines 412-413 and 446) or leave it alone. -/
def replaces (S S' : Structure d K) : Bool :=
  decide (S'.positions.length ≠ S.positions.length) &&
    decide (S'.atoms.length = S'.positions.length)

/-- The other structure after a call that changed `S` to `S'`: a shared array that has not been
replaced shows the new entries. -/
def follow (shared : Bool) (S S' other : Structure d K) : Structure d K :=
  if shared && !replaces S S' then { other with conn := S'.conn } else other

/-- A configuration call on the restored structure. -/
def callCopy (env : Env K) (t : Twins d K) (op : World.Op K) : Outcome (Twins d K) Unit :=
  let r := (⟨t.session, t.copy⟩ : World d K).call env op
  (⟨r.1.session, follow t.shared t.copy r.1.struct t.orig, r.1.struct,
    t.shared && !replaces t.copy r.1.struct⟩, r.2)

/-- A configuration call on the original structure. -/
def callOrig (env : Env K) (t : Twins d K) (op : World.Op K) : Outcome (Twins d K) Unit :=
  let r := (⟨t.session, t.orig⟩ : World d K).call env op
  (⟨r.1.session, r.1.struct, follow t.shared t.orig r.1.struct t.copy,
    t.shared && !replaces t.orig r.1.struct⟩, r.2)

/-- A history of calls on the restored structure, each of which may raise. -/
def runCopy (env : Env K) (t : Twins d K) (ops : List (World.Op K)) : Twins d K :=
  ops.foldl (fun t op => (t.callCopy env op).1) t

/-- A history of calls on the original structure, each of which may raise. -/
def runOrig (env : Env K) (t : Twins d K) (ops : List (World.Op K)) : Twins d K :=
  ops.foldl (fun t op => (t.callOrig env op).1) t

end Twins

end Lattpy

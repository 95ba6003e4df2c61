import Verif.Model.Structure

/-!
# What happens to the `shape` argument

`check_points` changes its `shape` in place (structure.py 959-966): `np.atleast_1d` returns a given array
itself, and `shape += …` changes it.  `Model/Structure.lean` describes the results of the functions; here
the content of the argument after the call is added as a state.
-/

set_option autoImplicit false

namespace Lattpy
namespace Structure

variable {d : ℕ} {K : Type*} [Field K] [LinearOrder K] [FloorRing K] [HasSqrt K]

/-- The object given as `shape`: a list, a tuple or a number, which NumPy copies, or an array. -/
inductive SizeObj where
  | sequence
  | array

/-- The numbers in the object after lines 959-966 of structure.py. -/
def sizeAfter (S : Structure d K) (obj : SizeObj) (dims : List K) (isInt relative : Bool) : List K :=
  match obj, relative, isInt, (toVec dims : Option (Vec d K)) with
  | .array, true, false, some size => List.ofFn (size + S.relativeMargin)
  | _, _, _, _ => dims

/-- `check_points(points, shape, relative, pos, tol)`, structure.py 919-975, with the numbers in the
object `shape` after the call as state. -/
def checkPointsArg (S : Structure d K) (points : List (Vec d K)) (obj : SizeObj) (isInt relative : Bool)
    (pos : Option (Vec d K)) (tol : K) (dims : List K) : Outcome (List K) (List Bool) :=
  (S.sizeAfter obj dims isInt relative, S.checkPoints points (.size dims isInt) relative pos tol)

/-- `build_indices(shape, primitive, pos, check, callback, dtype, return_pos=True)`, structure.py
1081-1194, with the numbers in the object `shape` after the call as state.  The first part
(`build_translation_vectors`, lines 1038-1050) makes a new array if `primitive` and changes none. -/
def buildIndicesArg (S : Structure d K) (obj : SizeObj) (isInt primitive : Bool)
    (pos : Option (Vec d K)) (check : Bool)
    (callback : Option (List (Idx d) → List (Vec d K) → List Bool)) (bits : Option ℕ)
    (dims : List K) : Outcome (List K) (List (Idx d) × List (Vec d K)) :=
  (match S.buildIndices (.size dims isInt) primitive pos false none bits with
    | .error _ => dims
    | .ok _ => if check then S.sizeAfter obj dims isInt primitive else dims,
  S.buildIndices (.size dims isInt) primitive pos check callback bits)

end Structure
end Lattpy

import Verif.Model.Spatial
import Verif.Model.Real
import Mathlib.Analysis.SpecialFunctions.Trigonometric.Basic

/-!
# Model of `lattpy/disptools.py` (paths and axes; no drawing)

Points of a path are arrays of any length: `add` cuts off surplus components but does not check
for missing ones.
-/

set_option autoImplicit false

namespace Lattpy

/-- Result length of an operation on two one-dimensional arrays (NumPy broadcasting): equal lengths,
or one of the arrays has length one; otherwise `ValueError`. -/
def broadcastLen (m n : ℕ) : Except PyErr ℕ :=
  if m = n then .ok n else if m = 1 then .ok n else if n = 1 then .ok m else .error .value

/-- Component `c` of an array after broadcasting (`none` outside). -/
def bcast {K : Type*} (p : List K) (c : ℕ) : Option K := if p.length = 1 then p[0]? else p[c]?

/-- An elementwise operation on two one-dimensional arrays. -/
def bzip {K : Type*} (f : K → K → K) (p q : List K) : Except PyErr (List K) :=
  match broadcastLen p.length q.length with
  | .error e => .error e
  | .ok n => .ok ((List.range n).filterMap fun c =>
      (bcast p c).bind fun x => (bcast q c).map fun y => f x y)

/-- `np.linspace(p0, p1, num)` for arrays: row `k` is `p0 + k * (p1 - p0) / (num - 1)`; a single
row is `p0`. -/
def linspace {K : Type*} [Field K] (p0 p1 : List K) (num : ℕ) : Except PyErr (List (List K)) :=
  (List.range num).mapM fun k : ℕ =>
    bzip (fun x y => x + (k : K) * ((y - x) / ((num - 1 : ℕ) : K))) p0 p1

/-- `DispersionPath`, disptools.py 297-301. -/
structure DispPath (K : Type*) where
  dim : ℕ
  labels : List String
  points : List (List K)
  nSect : ℕ

namespace DispPath
variable {K : Type*}

/-- `DispersionPath(dim)`, disptools.py 297-301. -/
def new (dim : ℕ) : DispPath K := { dim := dim, labels := [], points := [], nSect := 0 }

/-- `num_points`, disptools.py 315-318. -/
def numPoints (P : DispPath K) : ℕ := P.points.length

/-- `add(point, name)`, disptools.py 320-347: an empty name is replaced by the number of the point;
the first point sets the dimension if there is none yet. -/
def add (P : DispPath K) (point : List K) (name : String) : DispPath K :=
  let name := if name = "" then toString P.points.length else name
  let point' := if P.dim ≠ 0 then point.take P.dim else point
  let dim := if P.dim ≠ 0 then P.dim else point.length
  { P with dim := dim, points := P.points ++ [point'], labels := P.labels ++ [name] }

/-- `add_points(points, names)`, disptools.py 349-368: `zip` stops at the shorter list. -/
def addPoints (P : DispPath K) (points : List (List K)) (names : Option (List String)) :
    DispPath K :=
  let names := match names with
    | none => List.replicate points.length ""
    | some l => l
  (points.zip names).foldl (fun P p => P.add p.1 p.2) P

/-- `cycle()`, disptools.py 370-381; without points `IndexError`. -/
def cycle (P : DispPath K) : Except PyErr (DispPath K) :=
  match P.points.head?, P.labels.head? with
  | some p, some l => .ok { P with points := P.points ++ [p], labels := P.labels ++ [l] }
  | _, _ => .error .index

/-- `get_ticks()`, disptools.py 417-427. -/
def getTicks (P : DispPath K) : List ℕ × List String :=
  ((List.range P.numPoints).map fun i => i * P.nSect, P.labels)

/-- `edges()`, disptools.py 429-431. -/
def edges (P : DispPath K) : Except PyErr (List (List K × List K)) := chain P.points

section
variable [Field K]

/-- One section of `build`, disptools.py 413-414: `np.append(path, section, axis=0)` raises
`ValueError` unless the section has `dim` columns. -/
def addSection (dim n : ℕ) (path : List (List K)) (e : List K × List K) :
    Except PyErr (List (List K)) :=
  match broadcastLen e.1.length e.2.length with
  | .error e => .error e
  | .ok c => if c = dim then
      match linspace e.1 e.2 n with
      | .error e => .error e
      | .ok rows => .ok (path ++ rows)
    else .error .value

/-- `build(n_sect)`, disptools.py 399-415: the object remembers `n_sect` (also if the call raises).
Negative numbers are not modelled. -/
def build (P : DispPath K) (n : ℕ) : DispPath K × Except PyErr (List (List K)) :=
  ({ P with nSect := n }, match P.edges with
    | .error e => .error e
    | .ok es => es.foldlM (addSection P.dim n) [])

/-- `distance(p0, p1)`, spatial.py 43-63, for arrays of any lengths. -/
def pdist [HasSqrt K] (p q : List K) : Except PyErr K :=
  match bzip (fun x y => (x - y) * (x - y)) p q with
  | .error e => .error e
  | .ok l => .ok (HasSqrt.sqrt l.sum)

/-- `distances()`, disptools.py 433-438. -/
def distances [HasSqrt K] (P : DispPath K) : Except PyErr (List K) :=
  match P.edges with
  | .error e => .error e
  | .ok es => es.mapM fun e => pdist e.1 e.2

/-- `scales()`, disptools.py 440-443; `IndexError` for less than two points.  Dividing by a
zero distance NumPy gives `nan` and `inf` with a warning: `none`. -/
def scales [HasSqrt K] [DecidableEq K] (P : DispPath K) : Except PyErr (Option (List K)) :=
  match P.distances with
  | .error e => .error e
  | .ok [] => .error .index
  | .ok (x :: xs) => .ok (if x = 0 then none else some ((x :: xs).map fun y => y / x))

end

/-! ### predefined points and paths -/

section
noncomputable section

/-- `gamma()`, disptools.py 383-385. -/
def gamma (P : DispPath ℝ) : DispPath ℝ := P.add [0, 0, 0] "$\\Gamma$"

/-- `x(a)`, disptools.py 387-389; `ZeroDivisionError` for `a = 0`. -/
def x (P : DispPath ℝ) (a : ℝ) : Except PyErr (DispPath ℝ) :=
  if a = 0 then .error .zeroDivision else .ok (P.add [Real.pi / a, 0, 0] "$X$")

/-- `m(a)`, disptools.py 391-393. -/
def m (P : DispPath ℝ) (a : ℝ) : Except PyErr (DispPath ℝ) :=
  if a = 0 then .error .zeroDivision else .ok (P.add [Real.pi / a, Real.pi / a, 0] "$M$")

/-- `r(a)`, disptools.py 395-397. -/
def r (P : DispPath ℝ) (a : ℝ) : Except PyErr (DispPath ℝ) :=
  if a = 0 then .error .zeroDivision
  else .ok (P.add [Real.pi / a, Real.pi / a, Real.pi / a] "$R$")

/-- `chain_path(a)`, disptools.py 303-305. -/
def chainPath (a : ℝ) : Except PyErr (DispPath ℝ) :=
  match (DispPath.new 1).x a with
  | .error e => .error e
  | .ok P => P.gamma.cycle

/-- `square_path(a)`, disptools.py 307-309. -/
def squarePath (a : ℝ) : Except PyErr (DispPath ℝ) :=
  match (DispPath.new 2).gamma.x a with
  | .error e => .error e
  | .ok P => match P.m a with
    | .error e => .error e
    | .ok Q => Q.cycle

/-- `cubic_path(a)`, disptools.py 311-313. -/
def cubicPath (a : ℝ) : Except PyErr (DispPath ℝ) :=
  match (DispPath.new 3).gamma.x a with
  | .error e => .error e
  | .ok P => match P.m a with
    | .error e => .error e
    | .ok Q => Q.gamma.r a

end
end

/-! ### histories -/

/-- Calls on a path (the predefined points are calls of `add`). -/
inductive Op (K : Type*) where
  | add (point : List K) (name : String)
  | addPoints (points : List (List K)) (names : Option (List String))
  | cycle
  | build (n : ℕ)

/-- Execute one call; calls that raise leave the points unchanged. -/
def step [Field K] (P : DispPath K) : Op K → DispPath K
  | .add p n => P.add p n
  | .addPoints ps ns => P.addPoints ps ns
  | .cycle => match P.cycle with | .ok Q => Q | .error _ => P
  | .build n => (P.build n).1

/-- Execute a history. -/
def run [Field K] (P : DispPath K) (ops : List (Op K)) : DispPath K := ops.foldl step P

end DispPath

/-! ## axis of a dispersion plot -/

section
variable {K : Type*} [Field K] [LinearOrder K] [FloorRing K]

/-- The loop of `_scale_xaxis`, disptools.py 45-48, with `m = len(np.arange(sect_size))`;
`k[-1]` of an empty list raises `IndexError`. -/
def scaleLoop (m : ℕ) : List K → K → List K → List K → Except PyErr (List K × List K)
  | [], _, k, ticks => .ok (k, ticks)
  | s :: ss, k0, k, ticks =>
    let k' := k ++ (List.range m).map fun i : ℕ => k0 + (i : K) * s
    match k'.getLast? with
    | none => .error .index
    | some l => scaleLoop m ss l k' (ticks ++ [l])

/-- `_scale_xaxis(num_points, disp, scales)`, disptools.py 41-49, for `len(disp) = len`.
`sect_size` is a true quotient and `np.arange` rounds it up.  One point divides by zero; without
points `np.ones(-1)` raises `ValueError` and `np.arange` of the negative quotient is empty. -/
def scaleXaxis (numPoints len : ℕ) (scales : Option (List K)) : Except PyErr (List K × List K) :=
  match numPoints, scales with
  | 0, none => .error .value
  | 0, some ss => scaleLoop 0 ss 0 [] [0]
  | 1, _ => .error .zeroDivision
  | n + 2, scales =>
    let m := ⌈(len : K) / ((n + 1 : ℕ) : K)⌉.toNat
    scaleLoop m (match scales with | none => List.replicate (n + 1) 1 | some ss => ss) 0 [] [0]

end

end Lattpy

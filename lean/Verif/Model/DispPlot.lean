import Verif.Model.Disptools
import Verif.Model.Plot

/-!
# Model of the plotting functions of `lattpy/disptools.py`

A figure is what is handed to Matplotlib: the lines with their coordinates and colours, the filled
areas, the ticks and labels.  Not modelled: line widths, transparency, `tight_layout`, `plt.show`, the
width ratio of subplots, the text of the axis labels (except for the label of the colour bar).
Matplotlib's own errors are: `plot` with arrays of different lengths, ticks and tick labels of
different numbers, `contourf` with tables of the wrong shape, unknown axes of a grid.  The keyword `b` of
`Axes.grid` was renamed to `visible` in Matplotlib 3.5 and dropped in a later release
(requirements.txt: `matplotlib>=3.0.0`); the argument `b` of the functions below says whether it exists.
-/

set_option autoImplicit false

namespace Lattpy
namespace DispPlot

/-! ## colours -/

/-- The colour of one band: a colour or an atom. -/
inductive BandColor where
  | value (v : PyVal)
  | atom (a : Atom)

/-- The argument `color`: `None`, a string, an object without length, a list, an atom.  Atoms are
mappings and have a length (atom.py 96-98). -/
inductive ColorArg where
  | none
  | str (s : String)
  | single (v : PyVal)
  | list (l : List BandColor)
  | atom (a : Atom)

/-- The result of `_color_list`: a list or, if an atom was given, the atom. -/
inductive Colors where
  | list (l : List BandColor)
  | atom (a : Atom)

/-- `_color_list(color, num_bands)`, disptools.py 31-38. -/
def colorList (color : ColorArg) (numBands : ℕ) : Colors :=
  match color with
  | .none => .list ((List.range numBands).map fun i => .value (.str ("C" ++ toString i)))
  | .str s => .list (List.replicate numBands (.value (.str s)))
  | .single v => .list (List.replicate numBands (.value v))
  | .list l => .list l
  | .atom a => .atom a

/-- `colors[i]` and `col.color` of an atom, disptools.py 110-112, 184-186, 192-194 (and 78-80):
`IndexError` for a list that is too short; the parameters of an atom have names, a number raises
`KeyError`. -/
def bandColor (s : Session) (colors : Colors) (i : ℕ) : Except PyErr PyVal :=
  match colors with
  | .atom _ => .error .key
  | .list l => match l[i]? with
    | none => .error .index
    | some (.value v) => .ok v
    | some (.atom a) => s.param a "color"

/-! ## dispersions -/

/-- A line with its colour. -/
structure BandLine (K : Type*) where
  x : List K
  y : List K
  color : PyVal

/-- A filled area: a box, or (for a density of states) the area between the `y` axis and a line. -/
structure Fill (K : Type*) where
  x0 : K
  x1 : K
  y0 : K
  y1 : K
  color : PyVal

/-- The ticks and labels of the `x` axis and its right end. -/
structure Frame (K : Type*) where
  right : K
  ticks : List K
  labels : List String

/-- A plotted dispersion; `frame` is `none` if an existing axis was used. -/
structure DispFigure (K : Type*) where
  frame : Option (Frame K)
  lines : List (BandLine K)
  fills : List (Fill K)
  dos : List (BandLine K)

/-- The argument `grid`. -/
inductive GridArg where
  | off
  | axis (name : String)
  | on

/-- `ax.grid(b=True, which="major", axis=name)`. -/
def callGrid (b : Bool) (name : String) : Except PyErr Unit :=
  if name = "x" ∨ name = "y" ∨ name = "both" then if b then .ok () else .error .value
  else .error .value

/-- `grid` in `bandpath_subplots`, disptools.py 66-70. -/
def pathGrid (b : Bool) : GridArg → Except PyErr Unit
  | .off => .ok ()
  | .axis name => if name = "" then .ok () else callGrid b name
  | .on => callGrid b "both"

/-- `grid` in `disp_dos_subplots`, disptools.py 144-148: `True` is handed on as the name of the
axis. -/
def dosGrid (b : Bool) : GridArg → Except PyErr Unit
  | .off => .ok ()
  | .axis name => if name = "" then .ok () else callGrid b name
  | .on => .error .value

section
variable {K : Type*}

/-- Setting limits, ticks and labels, disptools.py 59-61, 134 and 141-142. -/
def makeFrame (ticks : List K) (labels : List String) : Except PyErr (Frame K) :=
  match ticks.getLast? with
  | none => .error .index
  | some r => if ticks.length = labels.length then .ok ⟨r, ticks, labels⟩ else .error .value

/-- `bandpath_subplots(ticks, labels, grid=grid)`, disptools.py 57-71. -/
def bandpathSubplots (b : Bool) (ticks : List K) (labels : List String) (grid : GridArg) :
    Except PyErr (Frame K) :=
  match makeFrame ticks labels with
  | .error e => .error e
  | .ok f => match pathGrid b grid with
    | .error e => .error e
    | .ok _ => .ok f

/-- `disp_dos_subplots(ticks, labels, grid=grid)`, disptools.py 123-149. -/
def dispDosSubplots (b : Bool) (ticks : List K) (labels : List String) (grid : GridArg) :
    Except PyErr (Frame K) :=
  match makeFrame ticks labels with
  | .error e => .error e
  | .ok f => match dosGrid b grid with
    | .error e => .error e
    | .ok _ => .ok f

/-- `ax.plot(x, y, color=col)`. -/
def plotLine (x y : List K) (color : PyVal) : Except PyErr (BandLine K) :=
  if x.length = y.length then .ok ⟨x, y, color⟩ else .error .value

/-- Column `i` of a table with `n` rows, `disp.T[i]`. -/
def column {n w : ℕ} (disp : Fin n → Fin w → K) (i : Fin w) : List K :=
  List.ofFn fun r => disp r i

variable [LinearOrder K]

/-- `min` of a list, `ValueError` for an empty one. -/
def minOf : List K → Except PyErr K
  | [] => .error .value
  | x :: xs => .ok (xs.foldl min x)

/-- `max` of a list, `ValueError` for an empty one. -/
def maxOf : List K → Except PyErr K
  | [] => .error .value
  | x :: xs => .ok (xs.foldl max x)

/-- `ax.fill_between(x, min(band), max(band), color=col)` with `x = [0, np.max(k)]`, disptools.py 107
and 114-115. -/
def fillBand [Zero K] (kmax : K) (band : List K) (color : PyVal) : Except PyErr (Fill K) :=
  match minOf band, maxOf band with
  | .ok a, .ok b => .ok ⟨0, kmax, a, b, color⟩
  | .error e, _ => .error e
  | _, .error e => .error e

/-- The body of the loop over the bands, disptools.py 109-115 and 183-189 (and 77-83). -/
def drawBand [Zero K] {n w : ℕ} (s : Session) (k : List K) (kmax : K) (disp : Fin n → Fin w → K)
    (colors : Colors) (fill : Bool) (i : Fin w) : Except PyErr (BandLine K × List (Fill K)) :=
  match bandColor s colors i with
  | .error e => .error e
  | .ok c => match plotLine k (column disp i) c with
    | .error e => .error e
    | .ok line => if fill then
        match fillBand kmax (column disp i) c with
        | .error e => .error e
        | .ok f => .ok (line, [f])
      else .ok (line, [])

/-- The loop over the bands, disptools.py 107-115 and 181-189; also `_draw_dispersion`,
disptools.py 74-83. -/
def drawBands [Zero K] {n w : ℕ} (s : Session) (k : List K) (disp : Fin n → Fin w → K)
    (colors : Colors) (fill : Bool) : Except PyErr (List (BandLine K × List (Fill K))) :=
  match maxOf k with
  | .error e => .error e
  | .ok kmax => (List.finRange w).mapM fun i => drawBand s k kmax disp colors fill i

/-- The body of the loop over the densities of states, disptools.py 191-197: `bins, dos = band`. -/
def drawDos (s : Session) (colors : Colors) (x : (List K × List K) × ℕ) :
    Except PyErr (BandLine K) :=
  match bandColor s colors x.2 with
  | .error e => .error e
  | .ok c => plotLine x.1.2 x.1.1 c

end

section
variable {K : Type*} [Field K] [LinearOrder K] [FloorRing K]

/-- The frame of a new figure, disptools.py 102-105 and 172-179. -/
def newFrame (newAxes : Bool) (f : Except PyErr (Frame K)) : Except PyErr (Option (Frame K)) :=
  if newAxes then
    match f with
    | .error e => .error e
    | .ok f => .ok (some f)
  else .ok none

/-- `plot_dispersion(disp, labels, grid, color, scales, fill, ax)`, disptools.py 86-120, for a table
`disp` with a row for each wave vector and a column for each band. -/
def plotDispersion {n w : ℕ} (b : Bool) (s : Session) (disp : Fin n → Fin w → K)
    (labels : List String) (grid : GridArg) (color : ColorArg) (scales : Option (List K))
    (fill newAxes : Bool) : Except PyErr (DispFigure K) :=
  match scaleXaxis labels.length n scales with
  | .error e => .error e
  | .ok (k, ticks) =>
    match newFrame newAxes (bandpathSubplots b ticks labels grid) with
    | .error e => .error e
    | .ok frame => match drawBands s k disp (colorList color w) fill with
      | .error e => .error e
      | .ok l => .ok ⟨frame, l.map Prod.fst, l.flatMap Prod.snd, []⟩

/-- `plot_disp_dos(disp, dos_data, labels, grid, color, fill, scales, axs)`, disptools.py 152-203. -/
def plotDispDos {n w : ℕ} (b : Bool) (s : Session) (disp : Fin n → Fin w → K)
    (dosData : List (List K × List K)) (labels : List String) (grid : GridArg) (color : ColorArg)
    (scales : Option (List K)) (fill newAxes : Bool) : Except PyErr (DispFigure K) :=
  match scaleXaxis labels.length n scales with
  | .error e => .error e
  | .ok (k, ticks) =>
    match newFrame newAxes (dispDosSubplots b ticks labels grid) with
    | .error e => .error e
    | .ok frame => match drawBands s k disp (colorList color w) fill with
      | .error e => .error e
      | .ok l => match dosData.zipIdx.mapM (drawDos s (colorList color w)) with
        | .error e => .error e
        | .ok dos => .ok ⟨frame, l.map Prod.fst, l.flatMap Prod.snd, dos⟩

end

/-! ## bands on a grid -/

/-- The array `bands`: a band for each value of the first axis, on a one- or two-dimensional grid of
wave vectors, or an array with another number of axes. -/
inductive Bands (K : Type*) where
  | line (nb n : ℕ) (f : Fin nb → Fin n → K)
  | plane (nb rows cols : ℕ) (f : Fin nb → Fin rows → Fin cols → K)
  | other (dim : ℕ)

/-- A plot of bands: the lines over an interval, or a contour plot of `value row col` at
`(kx col, ky row)` with the label of the colour bar. -/
inductive BandFigure (K : Type*) where
  | lines (left right : K) (l : List (List K × List K)) (bz : List K)
  | contour (kx ky : List K) (value : ℕ → ℕ → K) (label : Option String)

section
variable {K : Type*} [Field K] [LinearOrder K]

/-- `|x|`. -/
def absVal (x : K) : K := max x (-x)

/-- `plot_bands(kgrid, bands, disp_label, bz)`, disptools.py 206-275.  Contour plots need two or more
rows and columns and a value for each point.  The label of the colour bar depends on `len(bands)`
after `bands` was replaced by a table (lines 245-248), that is on the number of its rows.  `bz` is modelled
for one dimension only; an empty `disp_label` shows no colour bar. -/
def plotBands (kgrid : List (List K)) (bands : Bands K) (dispLabel : String) (bz : Option (List K)) :
    Except PyErr (BandFigure K) :=
  match bands with
  | .line nb n f => match kgrid with
    | [] => .error .index
    | k :: _ => if k.length = n then
        match minOf k, maxOf k with
        | .ok a, .ok b => .ok (.lines a b ((List.finRange nb).map fun i => (k, List.ofFn (f i)))
            (bz.getD []))
        | .error e, _ => .error e
        | _, .error e => .error e
      else .error .value
  | .plane nb rows cols f => match kgrid with
    | [kx, ky] =>
      let value : Fin rows → Fin cols → K := fun r c =>
        if h : nb = 1 then f ⟨0, by omega⟩ r c else ((List.finRange nb).map fun i => absVal (f i r c)).sum
      if ky.length = rows ∧ kx.length = cols ∧ 2 ≤ rows ∧ 2 ≤ cols then
        .ok (.contour kx ky
          (fun r c => if h : r < rows ∧ c < cols then value ⟨r, h.1⟩ ⟨c, h.2⟩ else 0)
          (if dispLabel = "" then none
            else some (if rows = 1 then dispLabel else "|" ++ dispLabel ++ "|")))
      else .error .type
    | _ => .error .value
  | .other _ => .error .notImplemented

end

end DispPlot

namespace DispPath
open DispPlot

section
variable {K : Type*} [Field K] [LinearOrder K] [FloorRing K] [HasSqrt K]

/-- `subplots(grid=grid)`, disptools.py 449-464. -/
def subplots (b : Bool) (P : DispPath K) (grid : GridArg) : Except PyErr (Frame K) :=
  bandpathSubplots b (P.getTicks.1.map fun t : ℕ => (t : K)) P.getTicks.2 grid

/-- `plot_dispersion(disp, ax)`, disptools.py 466-470 (`none`: the first section has no length and all
scales are infinite or undefined). -/
def plotDispersion {n w : ℕ} (b : Bool) (s : Session) (P : DispPath K) (disp : Fin n → Fin w → K)
    (grid : GridArg) (color : ColorArg) (fill newAxes : Bool) :
    Except PyErr (Option (DispFigure K)) :=
  match P.scales with
  | .error e => .error e
  | .ok none => .ok none
  | .ok (some ss) =>
    match DispPlot.plotDispersion b s disp P.labels grid color (some ss) fill newAxes with
    | .error e => .error e
    | .ok g => .ok (some g)

/-- `plot_disp_dos(disp, dos, axs)`, disptools.py 472-476. -/
def plotDispDos {n w : ℕ} (b : Bool) (s : Session) (P : DispPath K) (disp : Fin n → Fin w → K)
    (dosData : List (List K × List K)) (grid : GridArg) (color : ColorArg) (fill newAxes : Bool) :
    Except PyErr (Option (DispFigure K)) :=
  match P.scales with
  | .error e => .error e
  | .ok none => .ok none
  | .ok (some ss) =>
    match DispPlot.plotDispDos b s disp dosData P.labels grid color (some ss) fill newAxes with
    | .error e => .error e
    | .ok g => .ok (some g)

end
end DispPath
end Lattpy

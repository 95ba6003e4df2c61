import Verif.Model.Plotting
import Verif.Model.Lattice

/-!
# Model of what the plotting methods draw

The result of a plotting method is a list of markers, line segments and labels in the coordinates of
the lattice.  Not modelled: line widths, orders of drawing, legend, grid, margins and everything that
matplotlib makes of it; for one-dimensional lattices the second coordinate 0 which the helpers of
plotting.py append to all points.
-/

set_option autoImplicit false

namespace Lattpy

variable {d : ℕ} {K : Type*}

/-- A line from `start` to `start + vec`, drawn by `draw_vectors`, plotting.py 280-290. -/
structure Segment (d : ℕ) (K : Type*) where
  start : Vec d K
  vec : Vec d K
  color : PyVal

/-- Circles around points, drawn by `draw_sites`, plotting.py 542-581. -/
structure Markers (d : ℕ) (K : Type*) where
  points : List (Vec d K)
  radius : PyVal
  color : PyVal
  label : PyVal

/-- Everything drawn. -/
structure Drawing (d : ℕ) (K : Type*) where
  markers : List (Markers d K)
  segments : List (Segment d K)
  labels : List (String × Vec d K)

/-- `bool(value)` of a parameter.  Opaque objects count as true (an empty container, which is false,
or an array, whose truth value may be undefined, is not modelled). -/
def PyVal.truthy : PyVal → Bool
  | .none => false
  | .str s => decide (s ≠ "")
  | .num q => decide (q ≠ 0)
  | .obj _ => true

/-- `atom.color` and `atom.radius`, atom.py 116-122: there is no such attribute of the class, so that
`AttributeError` is raised if the parameter was deleted. -/
def Session.param (s : Session) (a : Atom) (key : String) : Except PyErr PyVal :=
  match s.attrParam a key with
  | some v => .ok v
  | none => .error .attribute

/-- `atom.color or f"C{alpha}"`, lattice.py 1224 and structure.py 1496. -/
def siteColor (color : PyVal) (alpha : ℕ) : PyVal :=
  if color.truthy then color else .str ("C" ++ toString alpha)

/-- `colors[at1][at2]` of a list of lists. -/
def colorAt (colors : List (List PyVal)) (a1 a2 : ℤ) : Except PyErr PyVal :=
  match pyGet colors a1 with
  | none => .error .index
  | some row => match pyGet row a2 with
    | none => .error .index
    | some c => .ok c

/-! ## `Lattice.plot` -/

namespace Lattice

/-- The markers of the sites of one atom, lattice.py 1222-1227.  Without data the lookup of the
positions raises `IndexError`. -/
def siteMarkers (L : Lattice d K) (alpha : ℕ) : Except PyErr (Markers d K) :=
  match pyGet L.struct.atoms alpha with
  | none => .error .index
  | some a => match L.world.session.param a "color" with
    | .error e => .error e
    | .ok c => match L.data with
      | none => .error .index
      | some D => match L.world.session.param a "radius" with
        | .error e => .error e
        | .ok r => .ok ⟨D.getPositions alpha, r, siteColor c alpha, L.world.session.nameAttr a⟩

section
variable [Field K] [LinearOrder K]

/-- The line to a neighbour, lattice.py 1235-1241. -/
def bondLine (D : LatticeData d K) (colors : List (List PyVal)) (i j : ℕ) :
    Except PyErr (Segment d K) :=
  match D.indices[i]?, D.positions[i]?, D.indices[j]?, D.positions[j]? with
  | some a, some p, some b, some q => match colorAt colors (Idx.alpha a) (Idx.alpha b) with
    | .error e => .error e
    | .ok c => .ok ⟨p, fun k => q k - p k, c⟩
  | _, _, _, _ => .error .index

/-- The line to a periodic neighbour, lattice.py 1247-1252. -/
def stubLine (b : LatticeBasis d K) (D : LatticeData d K) (colors : List (List PyVal)) (pscale : K)
    (i : ℕ) (link : ℕ × (Fin d → ℤ)) : Except PyErr (Segment d K) :=
  match D.indices[i]?, D.positions[i]?, D.indices[link.1]?, D.positions[link.1]? with
  | some a, some p, some a2, some q => match colorAt colors (Idx.alpha a) (Idx.alpha a2) with
    | .error e => .error e
    | .ok c => .ok ⟨p, fun k => pscale * (b.translate (fun m => -link.2 m) q k - p k), c⟩
  | _, _, _, _ => .error .index

/-- The periodic neighbours of a site and their translation vectors, lattice.py 1243-1246. -/
def stubLinks (D : LatticeData d K) (i : ℕ) : Except PyErr (List (ℕ × (Fin d → ℤ))) :=
  match D.neighborMask i none (some true) false, D.neighbors[i]?, D.pnvecs[i]? with
  | .ok mask, some nr, some vr => .ok ((maskRow nr mask).zip (maskRow vr mask))
  | .error e, _, _ => .error e
  | _, _, _ => .error .index

/-- The lines drawn for one site, lattice.py 1234-1252. -/
def siteSegments (b : LatticeBasis d K) (D : LatticeData d K) (colors pcolors : List (List PyVal))
    (pscale : K) (showPeriodic : Bool) (i : ℕ) : Except PyErr (List (Segment d K)) :=
  match D.getNeighbors i none (some false) true with
  | .error e => .error e
  | .ok l => match l.mapM (bondLine D colors i) with
    | .error e => .error e
    | .ok lines =>
      if showPeriodic then
        match stubLinks D i with
        | .error e => .error e
        | .ok links => match links.mapM (stubLine b D pcolors pscale i) with
          | .error e => .error e
          | .ok stubs => .ok (lines ++ stubs)
      else .ok lines

/-- The number of each site beside its position, `draw_indices`, plotting.py 649-652 with `text`,
lines 461-474.  In one dimension line 470 builds the ragged array `[pos, 0]`, which raises
`ValueError` from NumPy 1.24 on (`ragged` is false); older versions only warn. -/
def indexLabels (ragged : Bool) (offset : K) (positions : List (Vec d K)) :
    Except PyErr (List (String × Vec d K)) :=
  if d = 1 ∧ ragged = false ∧ positions ≠ [] then .error .value
  else .ok (positions.zipIdx.map fun p => (toString p.2, fun k => p.1 k + offset))

/-- `plot(pscale, show_periodic, show_indices, index_offset, con_colors)`, lattice.py 1163-1274.
Without data only a lattice without atoms passes the loop over the atoms; it has no sites. -/
def plot (L : Lattice d K) (ragged : Bool) (pscale : K) (showPeriodic showIndices : Bool) (offset : K)
    (conColors : Option (List (ℤ × ℤ × PyVal))) : Except PyErr (Drawing d K) :=
  -- lines 1215-1216
  if 3 < d then .error .value
  else match (List.range L.struct.numBase).mapM L.siteMarkers with
    | .error e => .error e
    | .ok markers =>
      match connectionColorArray L.struct.numBase (.str "k") conColors,
        connectionColorArray L.struct.numBase (.str "0.5") none with
      | .ok colors, .ok pcolors => match L.data with
        | none => .ok ⟨markers, [], []⟩
        | some D =>
          match (List.range D.numSites).mapM
            (siteSegments L.struct.basis D colors pcolors pscale showPeriodic) with
          | .error e => .error e
          | .ok segments =>
            match if showIndices then indexLabels ragged offset D.positions else .ok [] with
            | .error e => .error e
            | .ok labels => .ok ⟨markers, segments.flatten, labels⟩
      | .error e, _ => .error e
      | _, .error e => .error e

end
end Lattice

/-! ## The unit cell -/

/-- `itertools.permutations(range(n), r=2)`. -/
def permutations2 (n : ℕ) : List (Fin n × Fin n) :=
  (List.finRange n).flatMap fun i =>
    ((List.finRange n).filter fun j => decide (j ≠ i)).map fun j => (i, j)

/-- `itertools.permutations(range(n), r=3)`. -/
def permutations3 (n : ℕ) : List (Fin n × Fin n × Fin n) :=
  (permutations2 n).flatMap fun p =>
    ((List.finRange n).filter fun k => decide (k ≠ p.1) && decide (k ≠ p.2)).map fun k =>
      (p.1, p.2, k)

/-- `draw_unit_cell(vectors, outlines)`, plotting.py 656-700: start and direction of the arrows and
of the lines. -/
def drawUnitCell [Field K] (vectors : Matrix (Fin d) (Fin d) K) (outlines : Bool) :
    List (Vec d K × Vec d K) × List (Vec d K × Vec d K) :=
  let arrows := (List.finRange d).map fun i => ((0 : Vec d K), vectors i)
  if outlines ∧ 1 < d then
    let sides := (permutations2 d).map fun p => (vectors p.2, vectors p.1)
    if d = 3 then
      (arrows, sides ++ (permutations3 d).map fun p =>
        (fun k => vectors p.2.1 k + vectors p.2.2 k, vectors p.1))
    else (arrows, sides)
  else (arrows, [])

/-! ## `LatticeStructure.plot_cell` -/

/-- `num_distances`, structure.py 155-158 (`int(None)` without connections). -/
def Structure.numDistances (S : Structure d K) : Except PyErr ℕ :=
  match S.conn with
  | none => .error .type
  | some c => c.max?

/-- `0.6 * atom.radius`, structure.py 1527.  (Objects with their own multiplication are not
modelled.) -/
def fadedRadius : PyVal → Except PyErr PyVal
  | .num q => .ok (.num (3 / 5 * q))
  | _ => .error .type

/-- Everything drawn by `plot_cell`: the unit cell, the atoms, the lines to the neighbours and the
faded circles of the neighbours outside the cell, for each atom (`none`: nothing is drawn). -/
structure CellDrawing (d : ℕ) (K : Type*) where
  arrows : List (Vec d K × Vec d K)
  outlines : List (Vec d K × Vec d K)
  atoms : List (Markers d K)
  segments : List (Segment d K)
  images : List (Option (Markers d K))

namespace World

/-- The circle of one atom, structure.py 1495-1499. -/
def cellMarkers (w : World d K) (i : ℕ) : Except PyErr (Markers d K) :=
  match pyGet w.struct.atoms i with
  | none => .error .index
  | some a => match w.session.param a "color" with
    | .error e => .error e
    | .ok c => match pyGet w.struct.positions i with
      | none => .error .index
      | some p => match w.session.param a "radius" with
        | .error e => .error e
        | .ok r => .ok ⟨[p], r, siteColor c i, w.session.nameAttr a⟩

section
variable [Field K] [LinearOrder K]

/-- The loop over the neighbours, structure.py 1512-1519: the lines with the indices and positions of
the neighbours, up to an `IndexError` (swallowed by line 1520). -/
def linkLines (colors : List (List PyVal)) (i : ℕ) (p1 : Vec d K) :
    List (Idx d × Vec d K) → List (Segment d K × Idx d × Vec d K)
  | [] => []
  | (idx, p2) :: l => match colorAt colors i idx.alpha with
    | .error _ => []
    | .ok c => (⟨p1, fun k => p2 k - p1 k, c⟩, idx, p2) :: linkLines colors i p1 l

/-- Structure.py 1509-1521: the lines of one atom for one distance; an `IndexError` means that there
are none. -/
def levelLinks (S : Structure d K) (colors : List (List PyVal)) (i : ℕ) (p1 : Vec d K)
    (distidx : ℕ) : Except PyErr (List (Segment d K × Idx d × Vec d K)) :=
  match S.getNeighbors 0 i distidx with
  | .error e => if e = .index then .ok [] else .error e
  | .ok indices => match S.getPositions indices with
    | .error e => if e = .index then .ok [] else .error e
    | .ok ps => .ok (linkLines colors i p1 (indices.zip ps))

/-- Structure.py 1506-1521: the lines of one atom. -/
def atomLinks (S : Structure d K) (colors : List (List PyVal)) (i : ℕ) :
    Except PyErr (List (Segment d K × Idx d × Vec d K)) :=
  match pyGet S.positions i with
  | none => .error .index
  | some p1 => match S.numDistances with
    | .error e => .error e
    | .ok n => match (List.range n).mapM (levelLinks S colors i p1) with
      | .error e => .error e
      | .ok l => .ok l.flatten

/-- Structure.py 1522-1529: the different positions of the sites of one atom among the neighbours in
other cells (the order of `np.unique` is not modelled). -/
def imageMarkers (w : World d K) (markers : List (Markers d K))
    (links : List (Segment d K × Idx d × Vec d K)) (i : ℕ) :
    Except PyErr (Option (Markers d K)) :=
  match pyGet w.struct.atoms i, markers[i]? with
  | some a, some m =>
    let ps := (links.filter fun x => decide (x.2.1.alpha = (i : ℤ) ∧ x.2.1.cell ≠ 0)).map fun x => x.2.2
    if ps = [] then .ok none
    else match w.session.param a "radius" with
      | .error e => .error e
      | .ok r => match fadedRadius r with
        | .error e => .error e
        | .ok r => .ok (some ⟨ps.dedup, r, m.color, .none⟩)
  | _, _ => .error .index

/-- `plot_cell(show_cell, show_vecs, show_neighbors, con_colors)`, structure.py 1423-1547. -/
def plotCell (w : World d K) (showCell showVecs showNeighbors : Bool)
    (conColors : Option (List (ℤ × ℤ × PyVal))) : Except PyErr (CellDrawing d K) :=
  if 3 < d then .error .value
  else
    let cell := if showVecs then drawUnitCell w.struct.basis.vectors showCell else ([], [])
    match (List.range w.struct.numBase).mapM w.cellMarkers with
    | .error e => .error e
    | .ok markers => match connectionColorArray w.struct.numBase (.str "k") conColors with
      | .error e => .error e
      | .ok colors =>
        if showNeighbors then
          match (List.range w.struct.numBase).mapM (atomLinks w.struct colors) with
          | .error e => .error e
          | .ok links =>
            match (List.range w.struct.numBase).mapM (w.imageMarkers markers links.flatten) with
            | .error e => .error e
            | .ok images =>
              .ok ⟨cell.1, cell.2, markers, links.flatten.map Prod.fst, images⟩
        else .ok ⟨cell.1, cell.2, markers, [], []⟩

end
end World

end Lattpy

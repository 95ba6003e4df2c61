import Verif.Props.Utils
import Verif.Props.Spatial
import Verif.Props.Basis
import Verif.Props.Rotation
import Verif.Props.Atom
import Verif.Props.Shape
import Verif.Props.ShapePlot
import Verif.Props.Interpolate
import Verif.Props.Arguments
import Verif.Props.Data
import Verif.Props.DataEdit
import Verif.Props.DataMap
import Verif.Props.Structure
import Verif.Props.StructureQuery
import Verif.Props.Analysis
import Verif.Props.Complete
import Verif.Props.Build
import Verif.Props.Neighbors
import Verif.Props.LatticeBuild
import Verif.Props.LatticeCubic
import Verif.Props.LatticeDimer
import Verif.Props.Dangling
import Verif.Lemmas.LatticeHistory
import Verif.Props.LatticeIndex
import Verif.Props.CheckNeighbors
import Verif.Props.Graph
import Verif.Lemmas.LatticeBuilt
import Verif.Props.LatticeSummary
import Verif.Props.LatticeState
import Verif.Lemmas.Periodic
import Verif.Props.Periodic
import Verif.Lemmas.Ring
import Verif.Props.PeriodicRing
import Verif.Props.PeriodicSmall
import Verif.Props.PeriodicVectors
import Verif.Props.MinDistances
import Verif.Props.PeriodicAxes
import Verif.Model.Disptools
import Verif.Props.Disptools
import Verif.Model.Plotting
import Verif.Props.Plotting
import Verif.Lemmas.Append
import Verif.Props.Append
import Verif.Props.AppendChain
import Verif.Props.AppendFails
import Verif.Sanity
import Verif.Model.Presets
import Verif.Props.Presets
import Verif.Props.Stale
import Verif.Model.PresetLattices
import Verif.Lemmas.Nearest
import Verif.Props.PresetLattices
import Verif.Props.PresetPairs
import Verif.Props.PresetConst
import Verif.Model.WignerSeitz
import Verif.Lemmas.WignerSeitz
import Verif.Props.WignerSeitz
import Verif.Props.WignerSeitz3
import Verif.Props.BrillouinZone
import Verif.Model.Fourier
import Verif.Props.Fourier
import Verif.Props.FourierPresets
import Verif.Props.PresetBuild
import Verif.Model.BaseAtoms
import Verif.Props.BaseAtoms
import Verif.Model.Grid
import Verif.Props.Grid
import Verif.Props.DataLimits
import Verif.Props.Connections
import Verif.Props.Copy
import Verif.Model.TimeFormat
import Verif.Props.TimeFormat
import Verif.Model.Restore
import Verif.Props.Restore
import Verif.Props.NumDistances
import Verif.Model.SymmetryPoints
import Verif.Lemmas.SymmetryPoints
import Verif.Lemmas.PlanarRidge
import Verif.Props.SymmetryPoints
import Verif.Lemmas.CubicGrid
import Verif.Props.FiniteHypercubic
import Verif.Spec.Sound
import Verif.Lemmas.Sound
import Verif.Lemmas.SoundData
import Verif.Lemmas.SoundAppend
import Verif.Props.Sound
import Verif.Model.Plot
import Verif.Props.Plot
import Verif.Props.PlotSmall
import Verif.Props.UnitCellPlot
import Verif.Props.PresetAtoms
import Verif.Props.CellPlot
import Verif.Props.SmallTorus
import Verif.Props.Access
import Verif.Model.DispPlot
import Verif.Props.DispPlot
import Verif.Model.Hamiltonian
import Verif.Model.Text
import Verif.Lemmas.TextLines
import Verif.Props.Equality
import Verif.Props.Hamiltonian
import Verif.Lemmas.HexCells
import Verif.Props.Torus
import Verif.Props.TorusPresets
import Verif.Props.PeriodicSound
import Verif.Props.TorusLimits
import Verif.Props.RepeatPeriodic
import Verif.Props.AppendCells
import Verif.Props.AppendPresets
import Verif.Props.AppendTorus
import Verif.Props.CopyAlike
import Verif.Props.ConfigOrder
import Verif.Props.Overlap
import Verif.Props.HamiltonianJoined
import Verif.Props.Translate
import Verif.Props.Rescale
import Verif.Props.Restrict
import Verif.Props.PeriodicChange
import Verif.Props.LatticeRuns
import Verif.Props.BuildAgain
import Verif.Validation
import Verif.Props.RestrictShells
import Verif.Props.Snapshot
import Verif.Props.TorusSymmetry
import Verif.Props.TorusHamiltonian
import Verif.Props.BlochWaves
import Verif.Props.RingBands
import Verif.Props.Sublattices
import Verif.Props.Hops
import Verif.Props.Bandwidth
import Verif.Props.Hermitian
import Verif.Props.Connected
import Verif.Props.BandEdge

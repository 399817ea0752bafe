import Verif.Model.Arith
import Verif.Model.Types
import Verif.Model.Utils
import Verif.Model.Infinite
import Verif.Model.Triangulation
import Verif.Model.Constrained
import Verif.Model.Exact
import Verif.Model.SoftFloat
import Verif.Witness.Upstream
import Verif.Proofs.Common
import Verif.Proofs.BinSort
import Verif.Proofs.Generic
import Verif.Proofs.GenericC
import Verif.Props.Simple
import Verif.Props.Counts
import Verif.Spec.Domain
import Verif.Props.Flood
import Verif.Spec.Plane
import Verif.Spec.Symbolic
import Verif.Geo.Homog
import Verif.Geo.Mesh
import Verif.Geo.Ops
import Verif.Geo.Splits
import Verif.Geo.Flip
import Verif.Geo.Restore
import Verif.Geo.Place
import Verif.Geo.Insert
import Verif.Geo.Norm
import Verif.Geo.Run
import Verif.Geo.Sep
import Verif.Geo.Far
import Verif.Props.Local
import Verif.Props.Run
import Verif.Geo.Tile
import Verif.Props.Tiling
import Verif.Props.Weak
import Verif.Props.Walk
import Verif.Geo.Segment
import Verif.Geo.Cross
import Verif.Props.Segments
import Verif.Geo.CdtSwap
import Verif.Geo.CdtLoop
import Verif.Geo.CdtReg
import Verif.Geo.CdtRun
import Verif.Geo.CdtChain
import Verif.Geo.Wedge
import Verif.Geo.CdtAccept
import Verif.Props.Constrained
import Verif.Props.Accept
import Verif.Proofs.Fuel
import Verif.Props.Refuted
import Verif.Props.Rounding
import Verif.Props.Quality
import Verif.Props.Planar
import Verif.Model.Debug
import Verif.Props.Debug
import Verif.Proofs.SoftFloat
import Verif.Model.Rounded
import Verif.Geo.Agree
import Verif.Geo.RoundErr
import Verif.Geo.RoundGrid
import Verif.Spec.Robust
import Verif.Geo.RoundRun
import Verif.Props.Input
import Verif.Props.Rounded
import Verif.Proofs.Terminate
import Verif.Props.Terminate
import Verif.Spec.Ieee
import Verif.Proofs.Ieee
import Verif.Props.Ieee
import Verif.Geo.AgreeC
import Verif.Geo.RoundIsect
import Verif.Props.RoundedC
import Verif.Props.Grid
import Verif.Proofs.Panic
import Verif.Comb.Mesh
import Verif.Comb.Run
import Verif.Spec.Twice
import Verif.Props.Panic
import Verif.Model.Helpers
import Verif.Props.Helpers
import Verif.Props.Normal
import Verif.Geo.NoCross
import Verif.Spec.Planar
import Verif.Props.Present
import Verif.Geo.Delaunay
import Verif.Geo.Frame
import Verif.Geo.Acyclic
import Verif.Geo.Corners
import Verif.Geo.FrameRun
import Verif.Proofs.OneBin
import Verif.Proofs.Rename
import Verif.Props.Delaunay
import Verif.Proofs.BinOrder
import Verif.Proofs.Relabel
import Verif.Props.Order
import Verif.Props.PlanarF64
import Verif.Props.Framed
import Verif.Spec.Winding
import Verif.Geo.Winding
import Verif.Geo.Region
import Verif.Props.Polygon
import Verif.Props.Merge
import Verif.Spec.Local
import Verif.Props.Restored
import Verif.Spec.Unique
import Verif.Props.Unique
import Verif.Model.Inputs
import Verif.Model.Density
import Verif.Props.Inputs
import Verif.Props.Density
import Verif.Proofs.Sqrt
import Verif.Props.Axis
import Verif.Proofs.PanicC
import Verif.Props.PanicC
import Verif.Comb.Swap
import Verif.Comb.Loop
import Verif.Props.RootC
import Verif.Props.General
import Verif.Spec.Visible
import Verif.Geo.Visible
import Verif.Props.Visible
import Verif.Props.UniqueC
import Verif.Proofs.RelErr
import Verif.Props.Project
import Verif.Geo.Three
import Verif.Props.Three
import Verif.Geo.HullMesh
import Verif.Props.Hull
import Verif.Props.Covering
import Verif.Spec.Hull
import Verif.Geo.Certificate
import Verif.Props.Certificate
import Verif.Props.CertUnique
import Verif.Spec.IeeeRound
import Verif.Proofs.IeeeRound
import Verif.Props.IeeeSpec
import Verif.Geo.Chain
import Verif.Geo.ChainMesh
import Verif.Geo.Box
import Verif.Props.Boxed
import Verif.Geo.BoxCount
import Verif.Props.BoxCount
import Verif.Geo.Corner
import Verif.Props.Corner
import Verif.Geo.Ortho
import Verif.Props.Ortho
import Verif.Props.Cause
import Verif.Geo.KeepLocal
import Verif.Geo.OneFresh
import Verif.Props.Stages
import Verif.Geo.HullCount
import Verif.Props.HullCount
import Verif.Proofs.Tell
import Verif.Props.Snapshots
import Verif.Props.Viewer
import Verif.Props.Loader
import Verif.Model.Player
import Verif.Proofs.Story
import Verif.Props.Story
import Verif.Props.Player
import Verif.Proofs.Shows
import Verif.Props.SnapValid
import Verif.Props.Gabriel
import Verif.Props.GabrielC
import Verif.Props.Greedy
import Verif.Props.MinAngle
import Verif.Props.Enclosing
import Verif.Proofs.AgreeD
import Verif.Props.SnapRounded
import Verif.Props.RegionCount
import Verif.Props.Persist
import Verif.Props.Locality
import Verif.Props.LocalityC
import Verif.Props.Space
import Verif.Props.Turn
import Verif.Props.CountCert
import Verif.Props.SpaceC
import Verif.Audit

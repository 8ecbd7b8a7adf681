import Verif.Model.VF
import Verif.Spec.Facing
import Verif.Spec.Geometry
import Verif.Props.Demo
import Verif.Props.Structure
import Verif.Props.Rows
import Verif.Props.Shading
import Verif.Props.Ground
import Verif.Props.Radiosity
import Verif.Props.Energy
import Verif.Spec.Light
import Verif.Props.Irradiance
import Verif.Props.AOI
import Verif.Spec.Physical
import Verif.Props.ViewFactors
import Verif.Props.EndToEnd
import Verif.Props.Time
import Verif.Props.Cutting
import Verif.Spec.Parts
import Verif.Props.Fast
import Verif.Props.FastFull
import Verif.Props.FastDemo
import Verif.Spec.Average
import Verif.Props.Weighted
import Verif.Model.State
import Verif.Props.State
import Verif.Model.Run
import Verif.Props.Merge
import Verif.Props.Run
import Verif.Model.Shapely
import Verif.Spec.Segment
import Verif.Props.Shapely
import Verif.Model.GroundAt
import Verif.Props.GroundAt
import Verif.Props.GroundAtMore
import Verif.Spec.RayView
import Verif.Spec.Scene
import Verif.Props.RayView
import Verif.Props.DirectLight
import Verif.Props.Brighter
import Verif.Spec.Absorbed
import Verif.Lemmas.WedgeIntegral
import Verif.Lemmas.AoiRays
import Verif.Lemmas.AoiSky
import Verif.Props.AoiRays
import Verif.Spec.Horizon
import Verif.Lemmas.Horizon
import Verif.Props.Horizon
import Verif.Model.Circumsolar
import Verif.Spec.Circumsolar
import Verif.Props.Circumsolar
import Verif.Model.RowAt
import Verif.Props.RowAt
import Verif.Model.Side
import Verif.Props.Projection
import Verif.Props.RowBuild
import Verif.Lemmas.Cover
import Verif.Props.CastShadow
import Verif.Props.MergeShade
import Verif.Props.SegObjects
import Verif.Spec.Perez
import Verif.Spec.Elevation
import Verif.Props.Perez
import Verif.Props.AbsorbedDirect
import Verif.Model.Dicts
import Verif.Model.SurfParams
import Verif.Spec.Dicts
import Verif.Spec.SurfParams
import Verif.Props.Dicts
import Verif.Props.SurfParams
import Verif.Spec.Turn
import Verif.Props.Compass
import Verif.Model.Sandia
import Verif.Props.Sandia
import Verif.Spec.Pieces
import Verif.Lemmas.Segments
import Verif.Props.Segments
import Verif.Spec.Bounces
import Verif.Props.Bounces
import Verif.Spec.Shape
import Verif.Lemmas.Shape
import Verif.Props.Shape
import Verif.Model.Indices
import Verif.Props.Indices
import Verif.Model.FromDict
import Verif.Spec.FromDict
import Verif.Props.FromDict
import Verif.Model.GroundObj
import Verif.Props.GroundObj
import Verif.Props.RhoIntegral
import Verif.Props.Stability
import Verif.Model.Nan
import Verif.Props.Nan
import Verif.Spec.Defined
import Verif.Props.Defined
import Verif.Spec.Sky
import Verif.Props.TwoModels
import Verif.Spec.Strings
import Verif.Lemmas.SkyForm
import Verif.Props.SkyForm
import Verif.Props.MoreSky
import Verif.Spec.FastIndex
import Verif.Props.Demos
import Verif.Props.Swap
import Verif.Props.Shade
import Verif.Props.RowView
import Verif.Props.FitArgs
import Verif.Props.Through
import Verif.Props.Principles
import Verif.Props.FirstBounce
import Verif.Props.Report
import Verif.Props.AbsorbedLight
import Verif.Props.Mirror
import Verif.Props.Rounded
import Verif.Props.Moved
import Verif.Props.RoundedScene
import Verif.Props.RoundedTrig
import Verif.Props.RoundedFast
import Verif.Props.RoundedIrr
import Verif.Props.RoundedFlat
import Verif.Props.RoundedFlatLight
import Verif.Props.RoundedWeighted
import Verif.Props.Plot
import Verif.Props.RoundedGround
import Verif.Props.RoundedAbs
import Verif.Props.RoundedSolve
import Verif.Model.RoundedSolve
import Verif.Spec.RoundedSolve
import Verif.Props.RoundedInverse
import Verif.Props.RoundedAoi
import Verif.Model.RoundedAoi
import Verif.Spec.RoundedAoi
import Verif.Props.RoundedWedge
import Verif.Props.RoundedTable
import Verif.Model.RoundedAngle
import Verif.Props.RoundedAngle

import Verif.Model.Basic
import Verif.Model.Geom
import Verif.Model.Creation
import Verif.Model.Algorithms
import Verif.Model.Query
import Verif.Model.Api
import Verif.Model.Demo
import Verif.Spec.NumOrd
import Verif.Spec.Mesh
import Verif.Spec.Exact
import Verif.Spec.Float
import Verif.Spec.Examples
import Verif.Spec.Geometry
import Verif.Proofs.Core
import Verif.Proofs.Dfs
import Verif.Proofs.Partition
import Verif.Proofs.Ghost
import Verif.Proofs.Sort
import Verif.Proofs.Build
import Verif.Proofs.BuildStep
import Verif.Proofs.Traverse
import Verif.Proofs.Boxes
import Verif.Proofs.Chunks
import Verif.Proofs.LocateBoxes
import Verif.Proofs.Mesh
import Verif.Proofs.Init
import Verif.Proofs.BoxPairs
import Verif.Proofs.Leaves
import Verif.Proofs.Points
import Verif.Proofs.Sides
import Verif.Proofs.PointTest
import Verif.Proofs.LocatePoints
import Verif.Proofs.Edges
import Verif.Proofs.ClipSpec
import Verif.Proofs.CohenSutherland
import Verif.Proofs.LiangBarsky
import Verif.Proofs.Convex
import Verif.Proofs.ConvexPoint
import Verif.Proofs.CyrusBeck
import Verif.Proofs.CyrusNear
import Verif.Props.Boxes
import Verif.Props.Build
import Verif.Props.Stack
import Verif.Props.Points
import Verif.Props.Clip
import Verif.Props.Convex
import Verif.Props.CyrusBeck
import Verif.Proofs.Orient
import Verif.Proofs.FaceEdges
import Verif.Props.Edges
import Verif.Props.Orient
import Verif.Proofs.Lines
import Verif.Proofs.EdgeTree
import Verif.Proofs.Midpoint
import Verif.Props.EdgeTree
import Verif.Proofs.NodeBounds
import Verif.Props.NodeBounds
import Verif.Props.Demo
import Verif.Model.Memory
import Verif.Model.Cast
import Verif.Props.Memory
import Verif.Proofs.BuildOk
import Verif.Props.BuildOk
import Verif.Spec.Area
import Verif.Spec.Bounds
import Verif.Spec.Faces
import Verif.Proofs.Area
import Verif.Proofs.Volume
import Verif.Proofs.HalfPlane
import Verif.Proofs.HalfPlaneSet
import Verif.Proofs.PolyClip
import Verif.Proofs.PairArea
import Verif.Proofs.Separating
import Verif.Proofs.FaceSearch
import Verif.Props.PolyClip
import Verif.Props.Areas
import Verif.Spec.Weights
import Verif.Proofs.Weights
import Verif.Proofs.WeightRows
import Verif.Props.Weights
import Verif.Props.PointInPolygon
import Verif.Spec.FloatSize
import Verif.Proofs.Rounding
import Verif.Proofs.FloatArith
import Verif.Proofs.FloatPoint
import Verif.Proofs.FloatNear
import Verif.Proofs.FloatPoly
import Verif.Proofs.FloatConvex
import Verif.Proofs.FloatEdges
import Verif.Proofs.ScanAny
import Verif.Proofs.AxisEdges
import Verif.Proofs.ClipSize
import Verif.Proofs.FloatSeparate
import Verif.Proofs.FloatBuild
import Verif.Proofs.FloatWiden
import Verif.Props.Floats
import Verif.Props.FloatEdges
import Verif.Props.FloatQueries
import Verif.Props.FloatFaces
import Verif.Props.FloatBuild
import Verif.Proofs.FloatWeights
import Verif.Props.FloatWeights
import Verif.Props.Cast
import Verif.Proofs.Conserve
import Verif.Props.Conserve
import Verif.Props.EdgeCover
import Verif.Props.Agree
import Verif.Props.Disk
import Verif.Props.Touch
import Verif.Props.FloatWachspress
import Verif.Props.Relabel
import Verif.Props.Batch
import Verif.Props.FloatPieces
import Verif.Props.FloatCross
import Verif.Props.FloatRects
import Verif.Props.FloatRectTotals
import Verif.Props.Rebuild
import Verif.Props.OrderOnly
import Verif.Props.AffineAreas
import Verif.Props.FloatPolygons
import Verif.Props.FloatPolyTotals
import Verif.Props.Interpolation
import Verif.Props.SelfIntersect
import Verif.Props.AffineEdges
import Verif.Props.Wachspress
import Verif.Props.Exchange
import Verif.Props.Reordered
import Verif.Props.Redirected
import Verif.Props.TinyEdges
import Verif.Props.FloatRectPoints
import Verif.Props.FloatAxis
import Verif.Props.Dtype
import Verif.Props.Stretch
import Verif.Props.FloatStretch
import Verif.Props.StretchAreas
import Verif.Props.StretchEdges
import Verif.Props.StretchWeights
import Verif.Props.StretchNetwork
import Verif.Props.FloatStretchWeights
import Verif.Props.FloatStretchDefault
import Verif.Props.FloatWhole
import Verif.Props.FloatWholeEdges
import Verif.Props.FloatWholeFaces
import Verif.Props.FloatWholeCross
import Verif.Proofs.FloatWholeClip
import Verif.Props.FloatWholeAreas
import Verif.Spec.FloatDyadic
import Verif.Props.FloatDyadic
import Verif.Props.FloatDyadicEdges
import Verif.Proofs.FloatWholeWeights
import Verif.Props.FloatWholeWeights
import Verif.Proofs.FloatWholeTriangles
import Verif.Props.FloatWholeTriangles
import Verif.Spec.FloatCompass
import Verif.Proofs.FloatWholePieces
import Verif.Proofs.FloatWholeBoxes
import Verif.Props.FloatWholePieces
import Verif.Props.FloatWholeMoves
import Verif.Props.FloatWholeInside

import Verif.Props.Slam
import Verif.Props.Params
import Verif.Props.FeatureMap
import Verif.Props.Keypoints
import Verif.Props.KeypointDetection
import Verif.Props.MapMatching
import Verif.Props.MapWriter
import Verif.Props.Ransac
import Verif.Props.Consensus
import Verif.Props.LocalMap
import Verif.Props.System
import Verif.Props.Updates
import Verif.Props.Validity
import Verif.Model.P3p
import Verif.Spec.P3p
import Verif.Lemmas.P3p
import Verif.Props.P3p
import Verif.Props.TrackedFeatures
import Verif.Props.Primitives
import Verif.Props.PlaneMasks
import Verif.Props.PlaneSegment
import Verif.Props.Geometry
import Verif.Props.Covariance
import Verif.Props.Jacobian
import Verif.Props.Tracking
import Verif.Props.Optimizer
import Verif.Props.PoseVariance
import Verif.Props.Motion
import Verif.Props.DepthMap
import Verif.Props.Tum
import Verif.Props.ConcaveHull
import Verif.Props.PolygonOps
import Verif.Props.PolygonNormal
import Verif.Props.Refine
import Verif.Props.Points2d
import Verif.Props.PlaneMatch
import Verif.Props.PlaneEntry
import Verif.Props.CylinderFit
import Verif.Props.CylinderRansac
import Verif.Props.Angles
import Verif.Props.TumRun
import Verif.Props.GeometryMore
import Verif.Props.Tightened
import Verif.Props.Tightened2
import Verif.Props.PolygonRepair
import Verif.Props.PolygonAssemble
import Verif.Props.Lsd
import Verif.Props.LsdDisplay
import Verif.Props.Logger
import Verif.Props.Geodesic
import Verif.Props.CapeRun
import Verif.Props.HullOrder
import Verif.Props.Crossing
import Verif.Props.LsdRefine
import Verif.Props.LsdNfa
import Verif.Props.LsdAdvanced
import Verif.Props.LsdKeylines
import Verif.Props.PolygonLoops
import Verif.Props.PolygonOddEven
import Verif.Props.RandomThreads
import Verif.Props.Detector
import Verif.Props.KeypointStatics
import Verif.Props.KeypointHistory
import Verif.Props.PlaneCovariance
import Verif.Props.Drawing
import Verif.Props.CheckedMap
import Verif.Props.Statistics
import Verif.Props.RansacCount
import Verif.Props.PolygonFit
import Verif.Props.KalmanFusion
import Verif.Props.WorldFrame
import Verif.Props.LsdOrder
import Verif.Props.IterationOrder
import Verif.Props.Recognition
import Verif.Props.PerfectMatches
import Verif.Props.Moving
import Verif.Props.NoDrift
import Verif.Props.PlaneNoDrift
import Verif.Props.Blackout
import Verif.Props.ExportedScene
import Verif.Props.NoisyPoint
import Verif.Model.PlaneMap
import Verif.Props.Walls
import Verif.Props.MapSize
import Verif.Props.GivenUp
import Verif.Props.Anew
import Verif.Props.Recovery
import Verif.Props.Displaced
import Verif.Props.OneEach
import Verif.Props.Wall
import Verif.Props.FrameRate
import Verif.Props.Fast
import Verif.Props.Display
import Verif.Props.Brightness
import Verif.Props.LongRuns
import Verif.Props.MergeMatrix
import Verif.Props.ExportedFile
import Verif.Props.InverseFusion
import Verif.Props.StillDepth
import Verif.Props.LostDepth
import Verif.Props.TumText
import Verif.Props.TumProgram
import Verif.Props.TumPrefix
import Verif.Props.CapePrefix
import Verif.Props.ExportAfterLoss
import Verif.Props.ManyLosses
import Verif.Props.PoseVector
import Verif.Props.TumExact
import Verif.Props.TumError
import Verif.Props.TumLosses
import Verif.Props.TumFiles
import Verif.Props.CapeFiles
import Verif.Props.TumDirectory
import Verif.Props.Converted
import Verif.Props.Synchronised
import Verif.Props.TumLists
import Verif.Props.TumTwoWays
import Verif.Props.TumAgain
import Verif.Props.CapeExact

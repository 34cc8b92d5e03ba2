import Verif.Examples.Exact
import Verif.Examples.Rays
import Verif.Examples.Special
import Verif.Lemmas.AxisNear
import Verif.Lemmas.CenterNear
import Verif.Lemmas.ContractNear
import Verif.Lemmas.EigenNear
import Verif.Lemmas.FloatLaws
import Verif.Lemmas.FloatQr
import Verif.Lemmas.FloatRange
import Verif.Lemmas.FloatRound
import Verif.Lemmas.FloatRounding
import Verif.Lemmas.FloatSvd
import Verif.Lemmas.FloatTolerance
import Verif.Lemmas.Fp64
import Verif.Lemmas.GivensNear
import Verif.Lemmas.GramNear
import Verif.Lemmas.Householder
import Verif.Lemmas.HouseholderNear
import Verif.Lemmas.InRange
import Verif.Lemmas.InRangeView
import Verif.Lemmas.LeastSquares
import Verif.Lemmas.Loops
import Verif.Lemmas.Pinv
import Verif.Lemmas.Pose
import Verif.Lemmas.QrNear
import Verif.Lemmas.QrRank
import Verif.Lemmas.QuatDefect
import Verif.Lemmas.Quaternion
import Verif.Lemmas.RQ
import Verif.Lemmas.RayIntersection
import Verif.Lemmas.RaysRange
import Verif.Lemmas.RotationToQuat
import Verif.Lemmas.Rounding
import Verif.Lemmas.RoundingPinv
import Verif.Lemmas.RoundingRays
import Verif.Lemmas.RoundingTight
import Verif.Lemmas.RoundingView
import Verif.Lemmas.RqNear
import Verif.Lemmas.Scaled
import Verif.Lemmas.Serde
import Verif.Lemmas.Shadow
import Verif.Lemmas.Svd3
import Verif.Lemmas.Svd3Spec
import Verif.Lemmas.SvdNear
import Verif.Lemmas.SvdWitness
import Verif.Lemmas.SweepNear
import Verif.Lemmas.TridiagNear
import Verif.Lemmas.ViewRay
import Verif.Lemmas.ViewTight
import Verif.Lemmas.XReal
import Verif.Model.Camera
import Verif.Model.Debug
import Verif.Model.Extrinsics
import Verif.Model.Float
import Verif.Model.Householder
import Verif.Model.Intrinsics
import Verif.Model.Linalg
import Verif.Model.Linearize
import Verif.Model.PartialEq
import Verif.Model.RayBundleTypes
import Verif.Model.RayIntersection
import Verif.Model.RealScalar
import Verif.Model.RenderCube
import Verif.Model.Scalar
import Verif.Model.Serde
import Verif.Model.Svd3
import Verif.Model.TestUtils
import Verif.Model.Types
import Verif.Props.Balls
import Verif.Props.Batch
import Verif.Props.CameraFacts
import Verif.Props.CameraMatrix
import Verif.Props.CameraRays
import Verif.Props.Debug
import Verif.Props.DegenerateView
import Verif.Props.DocExamples
import Verif.Props.Editing
import Verif.Props.Epipolar
import Verif.Props.Equality
import Verif.Props.Extrinsics
import Verif.Props.Finite
import Verif.Props.FloatCamera
import Verif.Props.FloatDistance
import Verif.Props.FloatDistance32
import Verif.Props.FloatExact
import Verif.Props.FloatLinearize
import Verif.Props.FloatLinearize32
import Verif.Props.FloatMatrixTrip
import Verif.Props.FloatNormalized
import Verif.Props.FloatOrthographic
import Verif.Props.FloatOrthographic32
import Verif.Props.FloatParallel
import Verif.Props.FloatPipeline
import Verif.Props.FloatPixel
import Verif.Props.FloatPose
import Verif.Props.FloatRaySymmetry
import Verif.Props.FloatRays
import Verif.Props.FloatTriangulation
import Verif.Props.FloatTriangulation32
import Verif.Props.FloatView
import Verif.Props.FloatViewAxes
import Verif.Props.FloatViewDistance
import Verif.Props.FloatViewTriangulation
import Verif.Props.FloatViewTriangulation32
import Verif.Props.FloatWireframe
import Verif.Props.FromView
import Verif.Props.GaussNewton
import Verif.Props.Homography
import Verif.Props.Intrinsics
import Verif.Props.InvalidRays
import Verif.Props.Linearize
import Verif.Props.ManyCameras
import Verif.Props.Motion
import Verif.Props.NalgebraSvd
import Verif.Props.NearRays
import Verif.Props.Orientation
import Verif.Props.ParallelEpipolar
import Verif.Props.PerspectiveMatrix
import Verif.Props.PoseFacts
import Verif.Props.Projective
import Verif.Props.RayGeometry
import Verif.Props.RayIntersection
import Verif.Props.RayPixel
import Verif.Props.Refinement
import Verif.Props.RenderCube
import Verif.Props.Reprojection
import Verif.Props.ReprojectionMixed
import Verif.Props.ReprojectionView
import Verif.Props.Rounding
import Verif.Props.RoundingCamera
import Verif.Props.RoundingLinearize
import Verif.Props.RoundingMatrix
import Verif.Props.RoundingPerspective
import Verif.Props.RoundingPixel
import Verif.Props.RoundingPose
import Verif.Props.RoundingProject
import Verif.Props.RoundingRays
import Verif.Props.RoundingView
import Verif.Props.Serde
import Verif.Props.SerdeDerived
import Verif.Props.SingularMatrix
import Verif.Props.SpecialValues
import Verif.Props.Stereo
import Verif.Props.Symmetry
import Verif.Props.Telecentric
import Verif.Props.TestUtils
import Verif.Props.TestUtilsCamera
import Verif.Props.Triangulation
import Verif.Props.ViewFacts
import Verif.Props.Visibility
import Verif.Spec.Contracts
import Verif.Spec.Geometry
import Verif.Spec.Ieee
import Verif.Spec.Rounding
import Verif.Spec.RoundingForward
import Verif.Spec.RoundingPowi
import Verif.Spec.RoundingQr
import Verif.Spec.RoundingRange
import Verif.Spec.RoundingRays
import Verif.Spec.RoundingSvd
import Verif.Spec.RoundingView

# Formal model of cam-geom in Lean 4

Source: `/repo` (crate `cam-geom` 0.15.3). Lean project: `/verif/lean`, modules `Verif.*`.
The properties are in `properties.jsonl`, the theorems per property in `MANIFEST.json`.

## Trusted base

* Lean 4.33.0's kernel and Mathlib's definitions (real numbers, matrices, derivatives, square roots).
* Axioms: the theorems depend on at most `propext`, `Classical.choice` and `Quot.sound` (check with
  `#print axioms CamGeom.c31_least_squares`). No axiom is declared, there is no `sorry`, no
  `native_decide`, no `bv_decide`.
* That the definitions in `Verif/Model` say what the Rust code does. Each cites file and lines. The
  model was written by reading the source; it was not extracted and the Rust was not run.
* The nalgebra operations are modelled from memory of their definitions (dependency sources are not
  in the sandbox), see below.
* That Rust's `f32` and `f64` are the IEEE 754 formats binary32 and binary64 with round to nearest even, as
  defined bit by bit in `Model/Float.lean` (finite numbers, signed zeros, subnormals, infinities, one NaN), that
  `powi` multiplies by repeated squaring and takes the reciprocal for negative exponents, and, for `from_view` in floats (C76, C79, C104-C106),
  that sine and cosine of half the constant π are accurate to one unit roundoff. All other laws assumed in
  theorem statements (`Ieee`, `Rounding`, `RoundingMore`, `RoundingConv`, `RoundingPowi`, `RoundingView`,
  `RoundingRange`, `RoundingQr`, `RoundingSvd`, `RoundingForward`) are *proved* for this model in
  `Lemmas/FloatLaws.lean`, `Lemmas/FloatRounding.lean`, `Lemmas/FloatRange.lean`, `Lemmas/FloatQr.lean`,
  `Lemmas/FloatSvd.lean` and `Props/FloatRays.lean`. The hypotheses on floats that remain are
  `SvdBackwardStable` (C69; C83 does without it) and `Libm.Accurate` (sine and cosine on [-2, 2], for `from_view`:
  C76, C79, C104-C106).

There are no hypotheses other than those written in the theorem statements. Next to each property an
`example` shows that the hypotheses can be met by a concrete non-trivial case.

## Approach

*Scalars.* The crate is generic over `R: RealField`. The model is generic over a **lawless** class
`Scalar R` (operations only, no equations). Every function is written once against that class and used
at five kinds of scalars:

1. any `Scalar R` at all: theorems without arithmetic hypotheses, valid for floats as they are,
   including rounding, NaN and infinities (row-wise behaviour, error protocol, serialization, caches);
2. `R = ℝ`: exact arithmetic; the geometric properties;
3. any `R` with `Ieee R` (`Spec/Ieee.lean`): the rules for zeros, infinities and NaN, with all other
   results left open. These laws hold for floats as rounded (`RustFloat.ieee`). `Lemmas/XReal.lean` gives
   a simpler model of them;
4. any `R` with `Rounding R` (`Spec/Rounding.lean`): the standard model |fl(x∘y) - (x∘y)| ≤ u|x∘y| plus an
   underflow term `u ω`, speaking only about operations with finite results. Proved for the IEEE formats
   (`RustFloat.rounding`); `Lemmas/Fp64.lean` is a simpler model used in examples. `Spec/RoundingRays.lean`,
   `RoundingPowi`, `RoundingView`, `RoundingRange`, `RoundingQr`, `RoundingSvd` and `RoundingForward` add laws
   for single properties;
5. `R = RustFloat f lib`, the IEEE 754 numbers themselves (`f` is the format, `lib` the sine and cosine):
   C78 and later.

*Loops.* `for i in 0..n { out[(i,j)] = .. }` over a zero-filled matrix is a fold over `0..n` that writes
single entries. That the loop amounts to a row-wise map is a theorem (`Lemmas/Loops.lean`).

*Panics and errors.* `Result` is `Except Error`; functions with an `unwrap` or unsigned subtraction
return `Outcome` (`ok`, `err`, `panic`).

*nalgebra.* Vector, matrix, quaternion and isometry formulas, `Unit::new_normalize`,
`face_towards`/`look_at_lh`, `SVD::recompose` and `SVD::pseudo_inverse` are modelled explicitly, in the
order of operations nalgebra uses. Three iterative or branching routines are *parameters*: QR, SVD
(`SVD::try_new`), and rotation matrix to unit quaternion. Theorems quantify over every routine meeting a
contract (`Spec/Contracts.lean`):

* `QrContract`: orthogonal `q`, upper triangular `r`, `q r = A`. nalgebra's Householder algorithm is modelled in
  `Model/Householder.lean` (from memory of the published algorithm; its source was not available to check against) and proved to meet the
  contract in `Lemmas/Householder.lean`.
* `SvdContract`: when the routine returns, orthogonal `U`, `Vᵀ`, nonnegative `σ`, `U diag(σ) Vᵀ = M`.
  Nothing about convergence or order. Satisfied by `Lemmas/SvdWitness.lean`. It is an idealization: `my_pinv`
  asks nalgebra for a tolerance of 1e-7 only. C61 relaxes it to an approximate decomposition; C69 uses the
  floating-point version `SvdBackwardStable`. nalgebra's algorithm for 3x3 matrices (`svd_ordered3`, on top of the
  symmetric eigenvalue iteration) is modelled in `Model/Svd3.lean` (likewise from memory of the
  published algorithm). Its convergence and accuracy in exact arithmetic are proved in `Lemmas/Svd3.lean` and
  `Lemmas/Svd3Spec.lean`; C82 is about the function as run with it, without a contract. The same in floating
  point is C83: `Lemmas/AxisNear`, `TridiagNear`, `GivensNear`, `SweepNear`, `EigenNear`, `ContractNear`,
  `GramNear`, `QrRank` and `SvdNear` follow the computed numbers step by step. C89 adds which singular value is cut
  off for parallel and nearly parallel rays.
* `RotationContract`: a unit quaternion with the given rotation matrix. Met by nalgebra's four-case formula
  (`Lemmas/RotationToQuat.lean`). `c23_nalgebra` and `c26_nalgebra` state C23, C24, C26 without contracts.

*serde.* Modelled at the level of serde's data model: a value tree with maps (entry lists), sequences and
scalars; the two hand-written visitors are modelled statement by statement, the derived ones by the
documented behaviour of the derive.

*Equality.* The derived `PartialEq` implementations are modelled field by field, caches included
(`Model/PartialEq.lean`). For nalgebra: matrices entry by entry, unit quaternions up to sign. NaN comparing
unequal is the extra law `Ieee.NanUnequal`. A few rules on zeros used only by C74 are `Ieee.Zeros`.

## Layout

* `Verif/Model/*`: the model; every definition cites `/repo` lines.
* `Verif/Spec/*`: independent specifications (pinhole formula, rigid motion, distance to a line, contracts,
  float laws).
* `Verif/Lemmas/*`: helper facts and the witnesses for contracts and laws.
* `Verif/Props/*`: theorems `cNN_*` for property `CNN`, with non-vacuity examples.
* `Verif/Examples/*`: theorems with hypotheses, on exact arithmetic, rays, special values, serialization, equality and
  the test utility, applied to concrete cameras, rays and texts (`example := theorem data proofs`), so that each list of
  hypotheses is seen to be met by one non-trivial case.
* `Verif/Props/DocExamples.lean`: the examples of the crate documentation evaluated in the model (a check
  of the model, not properties).
* `seeded/LOG.jsonl`: mutation tests of the theorems, run with `tools/mutate.py` in a scratch copy.
* `tools/float_check.py`: the model transliterated to Python floats and compared with the values expected by the
  crate's unit tests (a sanity check of the model, not a proof; the Rust is not run).
* `tools/manifest.py` regenerates `MANIFEST.json`, `lean/Verif.lean` and the table below.

## What is modelled

| file | modelled | not modelled |
|------|----------|--------------|
| `camera.rs` | all of `Camera`, `from_perspective_matrix`, `as_camera_matrix`, `rq`, `rq_decomposition`, `pmat2cam_center`, `roundtrip_camera` | the unit tests |
| `extrinsics.rs` | all constructors, accessors, conversions, cache, (de)serialization, `Debug` | `Debug` of the private cache type |
| `intrinsics_perspective.rs` | constructor, `from_normalized_3x4_matrix`, accessors, both conversions, (de)serialization, `Debug` | |
| `intrinsics_orthographic.rs` | all, with derived `Debug` | |
| `lib.rs` | `Pixels`, `Points`, `Ray`, `RayBundle`, the traits `Bundle`, `IntrinsicParameters`, `Error` | `Debug` of `Points`, `Pixels`, `RayBundle` and of nalgebra storages |
| `ray_bundle_types.rs` | all | |
| `ray_intersection.rs` | all, with separate types for `R` and the `f64` accumulator | |
| `linearize.rs` | all | |
| `intrinsic_test_utils.rs` | all | |
| `examples/render-cube.rs` | `SvgWriter`, `render_wireframe`; output as a list of drawn elements | fixed texts, number formatting, file system |

Simplifications:

* Storage: a matrix is a function of its indices; storage kinds, strides and views are not represented.
* The frame marker is a phantom type parameter as in Rust. The compile-time guarantees (frames cannot be
  mixed, dimensions agree) are typing facts, not run-time theorems.
* Points and vectors of nalgebra share the type `V3`.
* `relative_ne` has its default epsilon as a parameter; over ℝ any nonnegative epsilon is allowed.
* `iter().sum()` starts the fold at `0`; newer Rust versions start at `-0.0`, which can only change the
  sign of a zero.
* `usize` is bounded by a parameter `umax`; overflow checks are as in a debug build (`panic`).
* Floats have a single NaN: sign and payload of NaN are not represented (they are not observable in the crate).
* `f64` (the accumulator) and `R` are related by two conversion functions (`F64Conv`), which may fail as
  `to_subset`/`try_convert` may.

## Findings about the code

* `as_camera_matrix` and `JacobianPerspectiveCache` divide by the third entry of `translation()`: all entries
  are NaN or infinite when the world origin is in the principal plane, for example when the camera is at the
  origin (C22, C29). When the world origin is behind the camera the matrix has the opposite sign, so points
  in front get a negative third coordinate (C21).
* The sign correction for negative focal lengths in both functions has no effect (C56).
* Rays crossing at an angle below about 4e-4 rad are not intersected: the cutoff `1e-7` drops a direction and
  the result is the point of minimal norm instead (C36, C37).
* Rays with zero or non-finite direction or centre give a non-finite point, not an error (C62).
* `from_view` returns no error for a target at the camera centre or an up vector along the viewing direction,
  e.g. a camera looking straight down with `up = (0, 0, 1)`: everything in the pose is NaN or infinite (C74).
* A pose with an infinite centre coordinate can be unequal to itself although no parameter is NaN, because
  the precomputed translation takes part in `==` (C70).
* Deserialization accepts quaternions that are not of unit norm; the pose is then not rigid (C42, C66).
* `from_normalized_3x4_matrix` accepts `fx = 0` or `fy = 0` (C19).
* `from_perspective_matrix` never returns an error, also for singular matrices, whose cameras have a
  non-finite centre (C24, C75);
  `Error::InvalidRotationMatrix` is never constructed.
* Points behind the camera are projected like the opposite points in front (C53).
* `generate_uv_raw` with step 0 does not terminate, and panics when an image side is smaller than the border
  (C43).
* The wireframe example draws everything as NaN when all vertices have the same image; a single infinite pixel
  coordinate collapses the picture to the corner (5, 5); when all coordinates of an axis are zeros of both signs the
  scale may become negative infinity (C98).
* The cache fields `q_inv` and `camcenter_z0` are not used by any public function.

## Properties and proofs

<!-- rows -->
| id | property | scope | module | proof |
|----|----|----|----|----|
| C01 | Batch conversions are row-wise | any scalar type | Batch | every per-point loop is a fold writing single matrix entries; induction over the fold shows output row i is a fixed function of input row i; no arithmetic law is used |
| C02 | World and camera frames convert back and forth without loss | exact arithmetic (R = real numbers) | Extrinsics | unit quaternion rotation is inverted by its conjugate (Lemmas/Quaternion); applied per row to the pose stored in the cache |
| C03 | Frame conversion is a rigid, orientation-preserving motion | exact arithmetic (R = real numbers) | Extrinsics | rotation preserves dot and cross products; distance and determinant of differences from the independent definitions in Spec/Geometry |
| C04 | camcenter() is the optical centre | exact arithmetic (R = real numbers) | Extrinsics | algebra on the cached pose and its inverse |
| C05 | All pose accessors describe one and the same transformation | exact arithmetic (R = real numbers) | Extrinsics | matrix(), rotation(), translation() and pose() are each compared with world_to_camera on every point |
| C06 | pose() and from_pose are inverse | exact arithmetic (R = real numbers) | Extrinsics | from_pose(pose()) and pose(from_pose()) as equations between structures; validity preserved |
| C07 | from_view points the camera at lookat | exact arithmetic (R = real numbers); matrix-to-quaternion contract | FromView | face_towards matrix is proved a rotation, the contract turns it into a quaternion, the half turn about z is computed with cos/sin of pi |
| C08 | from_view puts the requested up direction up | exact arithmetic (R = real numbers); matrix-to-quaternion contract | FromView | as C07; the component of up orthogonal to the line of sight is expressed with Gram-Schmidt in the statement |
| C09 | right/up/forward are an orthonormal right-handed frame and are the camera axes | exact arithmetic (R = real numbers) | Extrinsics | rotation of the standard basis; statement in dot and cross products |
| C10 | Perspective pixel round trip | exact arithmetic (R = real numbers) | Intrinsics | field arithmetic per row; hypotheses only fx, fy nonzero |
| C11 | Perspective projection is the pinhole formula and only depends on the viewing line | exact arithmetic (R = real numbers) | Intrinsics | closed form of the loop body compared with Spec.pinhole; converse direction by solving for the ratio of coordinates |
| C12 | Orthographic pixel round trip and depth independence | exact arithmetic (R = real numbers) | Intrinsics | field arithmetic per row; hypotheses only sx, sy nonzero |
| C13 | Camera-level round trip for any intrinsics model | exact arithmetic (R = real numbers) | CameraRays | Camera is generic in the IntrinsicParameters class; the hypothesis is the round trip of the intrinsics alone, instantiated for both built-in models |
| C14 | World rays start at the camera (perspective) or share its forward direction (orthographic) | exact arithmetic (R = real numbers) | CameraRays | closed forms of pixel_to_camera and to_pose |
| C15 | A projected point lies on the ray of its own pixel | exact arithmetic (R = real numbers) | CameraRays | C11/C12 plus C02: the point minus the ray centre is a multiple of the direction |
| C16 | point_on_ray_at_distance is at that distance, on the ray | exact arithmetic (R = real numbers) | CameraRays | square-root algebra; distance from Spec.distance; nonzero direction, nonnegative distance where needed |
| C17 | Frame change commutes with taking points on rays | exact arithmetic (R = real numbers) | CameraRays | linearity of the rotation |
| C18 | Ray bundle views agree | any scalar type | Batch | row-wise closed forms of centers/directions/to_single_ray/point_on_ray |
| C19 | from_normalized_3x4_matrix accepts exactly the normalized intrinsic matrices | exact arithmetic (R = real numbers) | CameraMatrix | approx::relative_ne modelled branch by branch with its default epsilon; equivalence with an explicit tolerance condition |
| C20 | An accepted intrinsic matrix and the resulting model project alike | exact arithmetic (R = real numbers) | CameraMatrix | homogeneous projection written out in the statement |
| C21 | as_camera_matrix projects like the camera | exact arithmetic (R = real numbers) | CameraMatrix | as_camera_matrix times homogeneous point equals homogeneous pixel, origin not in the principal plane; the depth sign is characterised |
| C22 | as_camera_matrix is unusable exactly when the world origin is in the principal plane | any type obeying the special-value rules `Ieee` | SpecialValues | division of a zero by a zero entry is NaN; uses special-value laws only, so holds for f32 and f64 as rounded |
| C23 | from_perspective_matrix reproduces the projection | exact arithmetic (R = real numbers); QR and matrix-to-quaternion contracts | PerspectiveMatrix | RQ factorization from the QR contract, sign flips, camera centre by determinants; projection compared homogeneously |
| C24 | from_perspective_matrix never fails and returns a proper, positive camera | exact arithmetic (R = real numbers); QR and matrix-to-quaternion contracts | PerspectiveMatrix | as C23; diagonal positive after the flips, determinant of the rotation is +1 |
| C25 | from_perspective_matrix ignores the scale and sign of the matrix | exact arithmetic (R = real numbers); QR and matrix-to-quaternion contracts | PerspectiveMatrix | uniqueness of RQ with positive diagonal |
| C26 | Camera -> matrix -> camera round trip | exact arithmetic (R = real numbers); QR and matrix-to-quaternion contracts | PerspectiveMatrix | uniqueness of RQ; quaternion equal up to sign, all observable accessors equal |
| C27 | linearize_at is the derivative of world_to_pixel | exact arithmetic (R = real numbers) | Linearize | `HasFDerivAt` of the pixel coordinates as functions on R^3 (Mathlib calculus) |
| C28 | The Jacobian is blind exactly along the viewing ray | exact arithmetic (R = real numbers) | Linearize | kernel of the 2x3 matrix computed; both inclusions |
| C29 | The Jacobian cache is unusable when the world origin is in the principal plane | any type obeying `Ieee` | SpecialValues | as C22 |
| C30 | best_intersection_of_rays error protocol | any scalar type, any SVD routine | RayIntersection | case analysis on the outcome monad; panics characterised by failing float conversion |
| C31 | best_intersection_of_rays is the least-squares point | exact arithmetic (R = real numbers); SVD contract | RayIntersection | normal equations are equivalent to minimal sum of squared point-line distances (inf over the line); truncated pseudo-inverse is the inverse for spread rays |
| C32 | Rays through a common point intersect there | exact arithmetic (R = real numbers); SVD contract | RayIntersection | common point has cost 0; uniqueness from C31 |
| C33 | best_intersection_of_rays does not depend on ray order | exact arithmetic (R = real numbers); any SVD routine | RayIntersection | the sums forming the normal equations are invariant under permutation |
| C34 | best_intersection_of_rays depends only on the lines | exact arithmetic (R = real numbers); any SVD routine | RayIntersection | each summand of the normal equations depends on the line only |
| C35 | best_intersection_of_rays commutes with rigid motions | exact arithmetic (R = real numbers); SVD contract | RayIntersection | cost is invariant under isometries |
| C36 | Near-parallel and parallel rays: bounded suboptimality, minimum norm | exact arithmetic (R = real numbers); SVD contract | RayIntersection | projection on kept singular directions (`Keep`); cost excess bounded by cutoff |
| C37 | Crossing rays at a tiny angle are not intersected | exact arithmetic (R = real numbers); SVD contract | Triangulation | explicit family of crossing rays with a lost bisector component |
| C38 | Multi-view triangulation round trip | exact arithmetic (R = real numbers); SVD contract | Triangulation | C15 + C32, for perspective cameras and for mixed camera types |
| C39 | Serialization round trip | any scalar type with lossless scalar serialization | Serde | structural; serialized trees and visitors of Model/Serde |
| C40 | Deserialization accepts exactly one of each field, in any order | any scalar type | Serde | both hand-written visitors modelled statement by statement; induction over the entry list; the error reported is stated for every prefix of faultless entries |
| C41 | Caches are always consistent | any scalar type | Serde | every constructor incl. deserialization builds the cache from params/rotation+centre; observable functions agree |
| C42 | Deserialization does not enforce a unit rotation | exact arithmetic (R = real numbers) (acceptance: any scalar) | Serde | deserialized quaternion is used as is; explicit counterexample and exact size of the defect |
| C43 | Round-trip test utility covers the pixel grid and passes for the built-in models | natural numbers with usize overflow as panic; round trip in exact arithmetic (R = real numbers) | TestUtils | range iterator modelled by its next(); induction on remaining range |
| C44 | Rounding error of the pixel round trip is bounded | any type obeying the `Rounding` laws | Rounding | error calculus in Lemmas/Rounding |
| C45 | Non-finite input never produces a finite pixel or ray | any type obeying `Ieee` | SpecialValues | non-finite values propagate through sums and products |
| C46 | Degenerate projections are never reported as finite | any type obeying `Ieee` | SpecialValues | division by zero never gives a finite value |
| C47 | Rounding error of the pose transforms is bounded | any type obeying `Rounding` | RoundingPose | error calculus, backward comparison with the exact motion of the stored quaternion and centre |
| C48 | Rounding error of projection is bounded | any type obeying `Rounding` | Rounding | error calculus |
| C49 | Rounding error of world_to_pixel is bounded | any type obeying `Rounding` | RoundingPixel | C47 + C48 with perturbation of a quotient |
| C50 | Moving scene and camera together changes nothing | exact arithmetic (R = real numbers) | Symmetry | composition of quaternions |
| C51 | A pose is determined by camcenter and rotation, the quaternion up to sign | exact arithmetic (R = real numbers) | Symmetry | a unit quaternion is determined up to sign by its rotation |
| C52 | The image in terms of right, up and forward | exact arithmetic (R = real numbers) | Projective | pixel expressed with dot products with right(), up(), forward() of the offset from camcenter() |
| C53 | What a projection cannot see | exact arithmetic (R = real numbers) | Projective | explicit families of points with the same pixel |
| C54 | Straight lines have straight images and parallel lines a common vanishing point | exact arithmetic (R = real numbers) | Projective | collinearity of images; limit along the ray (`Tendsto`) |
| C55 | Exact error of the linearization | exact arithmetic (R = real numbers) | CameraFacts | exact remainder formula: error = - depth change over depth times linear term |
| C56 | Closed form of as_camera_matrix | exact arithmetic (R = real numbers) | CameraFacts | closed form; the sign correction branch is shown never to change the result |
| C57 | Images determine the camera | exact arithmetic (R = real numbers) | CameraFacts | recovers all parameters from the pixels of all points |
| C58 | The two-ray result is the midpoint of the common perpendicular | exact arithmetic (R = real numbers); SVD contract | RayGeometry | uniqueness from C31 |
| C59 | Combining ray sets | exact arithmetic (R = real numbers); SVD contract (linearity: any SVD) | RayGeometry | costs add; linear dependence of the right-hand side |
| C60 | Stability of the ray intersection | exact arithmetic (R = real numbers); SVD contract | RayGeometry | quadratic form bounded below by 1-|cos|; perturbation of normal equations |
| C61 | Ray intersection tolerates an inaccurate SVD | exact arithmetic (R = real numbers); inexact SVD contract | RayGeometry | pseudo-inverse of a nearby matrix; relative residual |
| C62 | Invalid rays never yield a finite point | any type obeying `Ieee`, any SVD routine | InvalidRays | bad value reaches an entry of S, hence every entry of the result or the SVD |
| C63 | from_view depends only on what it should | exact arithmetic (R = real numbers); matrix-to-quaternion contract | ViewFacts | closed form of the rotation rows |
| C64 | Inexact pi in from_view only rolls the camera | exact arithmetic (R = real numbers) except the constant pi; matrix-to-quaternion contract | ViewFacts | half turn with an arbitrary angle |
| C65 | Re-posing ray bundles is compositional | any scalar (composition); exact arithmetic (R = real numbers) (inverse) | PoseFacts | closed forms of to_pose |
| C66 | Effect of a quaternion that is not exactly of unit norm | exact arithmetic (R = real numbers) | PoseFacts | polynomial identities in the quaternion coefficients |
| C67 | Rounding error of the full camera round trip | any type obeying `Rounding` | RoundingCamera | error calculus over pixel_to_camera, to_pose, point_on_ray, world_to_camera, camera_to_pixel; explicit f64 figures |
| C68 | The camera round-trip test is sound, complete and blind to the pose | exact arithmetic (R = real numbers) | TestUtilsCamera | C43 grid plus commutation of frame change (C17) and C02 |
| C69 | Rounding error of the ray intersection | any two types obeying `Rounding`, `RoundingMore`, `RoundingConv`; backward stable SVD | RoundingRays | error calculus over normalization, normal equations, pseudo-inverse and final product; perturbation bound of C60 |
| C70 | Meaning of == on poses, intrinsics, cameras and ray bundles | exact arithmetic (R = real numbers); NaN part: any type with `Ieee` and unequal NaN | Equality | derived comparisons modelled field by field (nalgebra unit quaternions compare up to sign); identifiability from C51 and C57 |
| C71 | The wireframe example draws a faithful, complete picture | exact arithmetic (R = real numbers) (infinity: any bound on the pixels) | RenderCube | folds of min/max over the edge list, then linear arithmetic; output file is the list of drawn elements |
| C72 | Rounding error of the camera matrix | any type obeying `Rounding` | RoundingMatrix | error calculus over rotation matrix, translation, product and division; the sign flip cancels and the divisor is exact |
| C73 | Rounding error of the linearization | any type obeying `Rounding` and `RoundingPowi`, squared depth not overflowing | RoundingLinearize | error calculus on top of C72, quotients and reciprocal square with inexact divisor |
| C74 | A view that determines no camera is never silently finite | any type obeying `Ieee`; coinciding points, axis-parallel views and overflow also use `Ieee.Zeros`; up-vector cases use nalgebra's conversion `shepperd` | DegenerateView | non-finite values reach one component of a quaternion factor, hence every component of the product, hence every entry derived from it |
| C75 | Singular or non-finite projection matrices never give a usable-looking camera | any type obeying `Ieee`, any linear algebra routines | SingularMatrix | division by a zero determinant, or a non-finite entry reaching three of the four minors; the bad centre coordinate reaches every translation entry |
| C76 | Rounding error of from_view | any type obeying `Rounding`, `RoundingMore`, `RoundingView`; nalgebra's conversion modelled by `shepperd` | RoundingView | stepwise error bounds for the axes of face_towards; every branch of the conversion is Lipschitz where its denominator is bounded below, which the branch conditions ensure; the half turn and the quaternion product; then the pose bounds of C47 |
| C77 | Ordinary inputs never give NaN or infinity | any type obeying `Rounding` and `RoundingRange`; both are proved for the IEEE 754 model `RustFloat` | Finite | calculus of magnitudes 2^k over every operation; the computed depth is bounded below by the error bounds of C47 and C67 |
| C78 | f64 and f32 cameras in ordinary ranges are accurate | `f64` and `f32` as modelled by `RustFloat` (bit-exact IEEE 754, round to nearest even) | FloatCamera | C49, C67 and C77 at the two formats; no hypothesis about results or about an abstract arithmetic is left |
| C79 | a well-posed view is a finite and accurate floating-point camera | any type obeying the rounding and range laws; then `f64` and `f32` as modelled by `RustFloat` with an accurate `Libm` | FloatView | magnitudes of every intermediate result of face_towards, normalization, the conversion to a quaternion and the product, using the error bounds of C76 step by step; then C76 and C77 without finiteness hypotheses |
| C80 | from_perspective_matrix in floating point represents the given matrix | any type obeying the rounding and range laws; then `f64` and `f32` as modelled by `RustFloat` | RoundingPerspective | error analysis of nalgebra's Householder QR (each step a near-orthogonal map with explicit constants), of the flips and signs of rq, of the determinants in pmat2cam_center and of the conversion to a quaternion; every intermediate result is bounded, so finiteness is a conclusion |
| C81 | Projecting with the camera of a matrix agrees with the matrix, in f64 | `f64` as modelled by `RustFloat` | RoundingProject | C80 gives a camera near an exact camera that reproduces the rows of the matrix; the homogeneous images then differ by a multiple of row length times distance, and C47, C48, C77 bound the computed projection |
| C82 | Ray intersection with nalgebra's own SVD: convergence and accuracy | exact arithmetic (R = real numbers); nalgebra's SVD as modelled in Model/Svd3 | NalgebraSvd | implicit QR steps keep an orthonormal basis tridiagonal and shrink the off-diagonal by 8/27 per step (Wilkinson shift); trace and norm of the normal equations exclude two small singular values; QR of the sorted columns is nearly diagonal; perturbation of the pseudo-inverse |
| C83 | Ray intersection in f64 and f32 with nalgebra's own SVD: convergence, finiteness and accuracy | any two types obeying the rounding and range laws; then `f64` and `f32` as modelled by `RustFloat`; nalgebra's SVD as modelled in Model/Svd3 | FloatRays | floating-point error analysis of tridiagonalization, Wilkinson shift and Givens sweeps; the product off0^2 off1^4 of the computed off-diagonal shrinks by 3/10 per sweep down to the threshold; the accumulated rotations stay near orthogonal and decompose a nearby Gram matrix; QR of the sorted columns, the last of which may vanish; then C69 with all intermediate results bounded |
| C84 | Rays that nearly meet: distance of the point found from the common point | exact arithmetic (R = real numbers); then `f64` and `f32` as modelled by `RustFloat`; nalgebra's SVD | NearRays | comparison of least-squares costs with the lower bound 1-|cos| of the quadratic form; then C82, C83 |
| C85 | Triangulation in f64 from measured pixels | `f64` as modelled by `RustFloat`; nalgebra's SVD as modelled in Model/Svd3 | FloatTriangulation | error bounds of direction and centre of the ray of a pixel (C48, C47) with finiteness from C77; the ray passes near the point and has nearly the right direction; then C84; for computed pixels C49 gives sigma = 1.1e-10 |
| C86 | Debug output shows exactly the parameters | any scalar, any number formatting that is injective and free of separators; builders of core::fmt modelled | Debug | unique parsing: a common continuation determines value and rest, field by field, also through the indentation of the alternate format |
| C87 | Camera matrix and Jacobian in f64 | `f64` as modelled by `RustFloat` | FloatLinearize | the error calculus of C72 and C73, with magnitudes of the rotation matrix that use the norm of the quaternion and separate magnitudes for the rows and columns of K [R | t]; the Jacobian is invariant under scaling of the matrix, so the computed divisor needs no accuracy; finiteness by the magnitude calculus of C77 |
| C88 | Orthographic f64 cameras, and triangulation with cameras of both kinds | `f64` as modelled by `RustFloat`; nalgebra's SVD as modelled in Model/Svd3 | FloatOrthographic | the ray of a pixel starts near the point's offset (C48) and runs along the optical axis up to rounding (C47), finiteness from C77; then C84 as in C85 for a list of cameras of both kinds; the round trip is C67 with C77 |
| C89 | Parallel and nearly parallel rays in f64 | any two types obeying the rounding and range laws; then `f64` as modelled by `RustFloat` (f32 noise exceeds the cutoff, there only C83's finiteness holds); nalgebra's SVD as modelled in Model/Svd3 | FloatParallel | the least singular value is below the length of the image of any unit vector up to the error of the decomposition, so it is cut off; its singular vector is then near beta; error calculus of the two remaining terms of the pseudo-inverse |
| C90 | Which 3x4 matrices are accepted as normalized, in f32 and f64 | `f64`, `f32` and every binary format as modelled by `RustFloat`, with EPSILON as the tolerance; approx's relative_ne modelled; the bound on the pixel in exact arithmetic | FloatNormalized | next to one, differences are exact and multiples of EPSILON, so the rounded comparison decides the exact one; far away both tolerances are too small; NaN and infinities by cases; quotient estimate for the pixel |
| C91 | The point at a distance along a ray, in f64 and f32 | `f64` and `f32` as modelled by `RustFloat` | FloatDistance, FloatDistance32 | error of the norm (8 u) through quotient, product and sum, finiteness from the range laws; the camera statements add the distance of the computed ray from the point (C85, C88) |
| C92 | Triangulation never fails | `f64` and `f32` as modelled by `RustFloat`; nalgebra's SVD as modelled in Model/Svd3 | FloatPipeline | the ray of a pixel stays in range (C77) and its direction keeps a length of at least 0.98 (C47); then C83 |
| C93 | A camera survives the trip through its matrix in f64 | `f64` as modelled by `RustFloat`; nalgebra's QR and Shepperd's method as modelled | FloatMatrixTrip | the matrix of as_camera_matrix is, up to one common factor, within 1e-13 per row of K[R|t] (C87's tools); hence it is in the class of C80 with kappa = 1/1000, with a null point near the centre (Cramer); C81 bounds the new camera's pixels, C47/C49 the old one's |
| C94 | What is exact in f32 and f64 | `f32` and `f64` as modelled by `RustFloat`, every bit pattern | FloatExact | rounding commutes with negation, so sign changes cancel operation by operation; the relation `Same` (equal up to the sign of zero) is preserved by addition, multiplication and, unless a zero is divided by, division; products with 0 and 1 and sums with 0 are exact |
| C95 | In f64 and f32 the intersection hardly depends on how the lines are written | `f64` and `f32` as modelled by `RustFloat`; nalgebra's SVD as modelled in Model/Svd3 | FloatRaySymmetry | the sum of squared distances depends only on the set of lines, so both lists have the same least-squares point, and the angles agree; C83 for each list; for disturbed rays C60 bounds the distance of the two least-squares points |
| C96 | Frame changes and the axes of a camera in f64 and f32 | bit-level `f64`/`f32` (`Flt`) `from_rotation_and_camcenter`, `world_to_camera`, `camera_to_world`, `right`, `up`, `forward` | FloatPose | C47's bounds with the concrete constants, finiteness from C77, `abs_len_rotate` (a nearly unit quaternion nearly keeps lengths) and `exact_trip`; the axes by `lookdir_near` (difference of the moved point and the centre, then `normalize`); NaN far away by `Format.rnd_absorb`: numbers above `2^(p+1)` are multiples of four, so adding one rounds back |
| C97 | Which inputs Camera, the parameter structs, IntrinsicParametersOrthographic and RayBundle deserialize from | any scalar type and token type; derived `Deserialize` as modelled by `visitEntries`/`requiredField`/`visitElements`/`structFields` | SerdeDerived | `HasField` (exactly one entry with that key) is stated on the list itself and shown equivalent to the model's lookup; each type by destructuring its field list; unknown keys by induction over the entries; errors by `visitEntries_append`: entries without a fault are passed over, so the first one with a fault decides (`FirstFault`) |
| C98 | The wireframe example in f64 | render_wireframe and SvgWriter (Model/RenderCube.lean) instantiated with the IEEE 754 f64 of Model/Float.lean; INFINITY, min and max are any functions with the documented behaviour (Spec.IsF64Order); the pixel coordinates are those the f64 camera computes, whatever camera it is. Number formatting is not modelled. | FloatWireframe | The extremes found by the folds are finite coordinates (fold_min_finite, fold_max_finite); each quotient is within 5u of the exact scale or +inf for a flat axis (scale_near); the smaller one is chosen (scale_choice); rounding of the affine map (coord_near). Hypothesis WideOrFlat: an axis all of whose coordinates are zeros must not mix +0 and -0, because f64::min and f64::max may then return zeros whose difference is -0. |
| C99 | Triangulation in f32 from measured pixels | `f32` as modelled by `RustFloat`; nalgebra's SVD as modelled in Model/Svd3, run in f64 | FloatTriangulation32 | as C85 with the constants of f32: the ray of a pixel passes near the point and has nearly the right direction, then the f32 statement of C84; finiteness from C77 with the smaller exponent range |
| C100 | Camera matrix and Jacobian in f32 | `f32` as modelled by `RustFloat` | FloatLinearize32 | as C87, with magnitudes of the rotation matrix that use the norm of the quaternion; finiteness within the exponent range of f32 |
| C101 | Orthographic f32 cameras, and triangulation in f32 with cameras of both kinds | `f32` as modelled by `RustFloat`; nalgebra's SVD as modelled in Model/Svd3, run in f64 | FloatOrthographic32 | as C88 with the constants of f32 and the sharper magnitudes of rotations in Lemmas/RoundingTight; the round trip compares the computed point with the exact ray and applies the bound for world_to_pixel |
| C102 | Pixels of perspective cameras in f64 and f32, at any scale | bit-level `f64`/`f32` (`Flt`); the pose, the intrinsics and the round trip through `point_on_ray` | FloatPixel | entrywise errors of the frame changes with the sharp magnitudes of Lemmas/RoundingTight, then the error of the division by the depth; the round trip reuses the norm bound for a nearly unit quaternion and c67_perspective_of_error; finiteness from C77 |
| C103 | Two perspective cameras and one point | real scalars; perspective cameras with unit quaternions, SVD by its contract | Epipolar | C15 and the pinhole formula give the set of points of a pixel; coplanar vectors by the identity of Grassmann; images of three points are collinear iff their triple product vanishes, which rotations preserve; different centres: a direction transversal to three given vectors from a nonzero polynomial |
| C104 | Triangulating with f64 cameras placed by from_view | f64 with IEEE 754 arithmetic (F64 lib) and the modelled SVD; cameras given by the arguments of from_view | FloatViewDistance, FloatViewTriangulation | C76 bounds the computed quaternion against a unit quaternion of the exact view; the directions in the camera frame are those of C85; the rays pass near the point and in the right direction, and C84 gives the intersection. For computed pixels C85 is used with a rotation of unit norm up to 1.6e-13 |
| C105 | The axes of a floating-point camera placed by from_view | `f64` and `f32` as modelled by `RustFloat` with an accurate `Libm` | FloatViewAxes | C76 bounds the computed quaternion against a unit quaternion of the exact view; the error of an axis in terms of the defect of the quaternion is that of C96; C07 and C08 identify the exact axes |
| C106 | Triangulating with f32 cameras placed by from_view | `f32` as modelled by `RustFloat` with an accurate `Libm`, the SVD in `f64` | FloatViewDistance, FloatViewTriangulation32 | C76 bounds the computed quaternion against a unit quaternion of the exact view, in the length of quaternions; the directions in the camera frame are those of C99; the rays pass near the point and in the right direction, and C84 gives the intersection |
| C107 | Reprojecting triangulated points in f64 and f32 | `f64` and `f32` as modelled by `RustFloat`, the SVD in `f64` | Reprojection, ReprojectionMixed, ReprojectionView | C85 and C99 give a point near the true one; slopes of nearby points differ by at most 10.6 times their distance over the depth; the rounding error of the projection is that of C85 and C99 applied to the point found; for cameras placed by `from_view` the same with C104, C106 and the pixel bounds of C79; with orthographic cameras C88 and C101, whose images of nearby points differ by their distance times the scale |
| C108 | Two orthographic cameras, or one of each kind, and one point | real scalars; cameras with unit quaternions, SVD by its contract | ParallelEpipolar | C14 and C15 give the line of a pixel; coplanarity by explicit coefficients from the cross product; C32 for the intersection; images of lines by linearity |
| C109 | Two perspective images of a plane, and images of a camera that only turns | real scalars; perspective cameras with unit quaternions | Homography | pixels in homogeneous coordinates; on the plane the change of centre is the linear map 1 + b nᵀ / δ, whose determinant is the ratio of the distances of the centres from the plane; converse from C103 |
| C110 | Refining a point with the Jacobians of several cameras | real scalars; perspective cameras with unit quaternions | GaussNewton, Refinement | kernel of one Jacobian from C28, derivative from C27, exact remainder from C55 (the Jacobian at y maps y - x to the pixel difference scaled by the depth ratio), Cauchy-Schwarz; lines of sight from C103; local quadratic convergence from continuity of the Jacobians and of the inverse normal matrix |
| C111 | Segments, visible regions and cross ratios | real scalars; unit quaternions | Visibility | the image of a weighted mean is a weighted mean of the images with weights multiplied by the depths; the inverse change of weights gives the other inclusion |
| C112 | Pixels and directions | real scalars; unit quaternions | Stereo | the direction expressed in the orthonormal axes (C09); coefficients of a direction determine the pixel |
| C113 | Rectified stereo pairs | real scalars; unit quaternions; SVD contract for the triangulation | Stereo | camera coordinates of the second camera are those of the first minus (b, 0, 0); C103, C32 |
| C114 | Any number of cameras of both kinds and one point | real scalars; unit quaternions; SVD contract for the second part | ManyCameras | the points shown in a pixel are the line of its ray (C103, C108) up to one point; the exceptions are finitely many; C32 |
| C115 | Distance from a ray and difference of pixels | real scalars; unit quaternions; SVD contract for the last part | RayPixel | coordinates along the axes of the camera (C52, C112); Cauchy-Schwarz for the lower bound; C31 |
| C116 | Area and orientation of triangles in images | real scalars; unit quaternions | Orientation | triple products are invariant under the rotation of the pose (determinant 1) |
| C117 | Orthographic cameras as limits of perspective cameras | real scalars; unit quaternions | Telecentric | camera coordinates of the camera moved back are those of the orthographic camera plus (0, 0, D) |
| C118 | Images of moving points and of moving cameras | real scalars; built-in cameras with unit quaternions | Motion | closed form of the depth and the pixel along the motion (pinhole formula of C11 in rotated coordinates) |
| C119 | Resized, cropped, mirrored and rotated images | real scalars; built-in cameras; the statements about rays need no assumption on the pose | Editing | closed forms of projection and rays; a rotation matrix that fixes the third axis is a planar rotation |
| C120 | Images of balls | real scalars; built-in cameras with unit quaternions; nonnegative radius for the perspective case | Balls | points of a pixel from C103, point of the ray closest to the centre of the ball |
<!-- /rows -->

## Not expressible / out of scope

* `Debug` text of point, pixel and ray collections, how `core::fmt` writes a single number (a parameter of
  `Model/Debug.lean`), `no_std` building, performance.
* Bit-exact float results of geometric computations; the error bounds C44, C47-C49, C67, C69, C72, C73 take their place.

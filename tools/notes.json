{
 "C01": {
  "scope": "any scalar type",
  "note": "every per-point loop is a fold writing single matrix entries; induction over the fold shows output row i is a fixed function of input row i; no arithmetic law is used"
 },
 "C02": {
  "scope": "exact arithmetic (R = real numbers)",
  "note": "unit quaternion rotation is inverted by its conjugate (Lemmas/Quaternion); applied per row to the pose stored in the cache"
 },
 "C03": {
  "scope": "exact arithmetic (R = real numbers)",
  "note": "rotation preserves dot and cross products; distance and determinant of differences from the independent definitions in Spec/Geometry"
 },
 "C04": {
  "scope": "exact arithmetic (R = real numbers)",
  "note": "algebra on the cached pose and its inverse"
 },
 "C05": {
  "scope": "exact arithmetic (R = real numbers)",
  "note": "matrix(), rotation(), translation() and pose() are each compared with world_to_camera on every point"
 },
 "C06": {
  "scope": "exact arithmetic (R = real numbers)",
  "note": "from_pose(pose()) and pose(from_pose()) as equations between structures; validity preserved"
 },
 "C07": {
  "scope": "exact arithmetic (R = real numbers); matrix-to-quaternion contract",
  "note": "face_towards matrix is proved a rotation, the contract turns it into a quaternion, the half turn about z is computed with cos/sin of pi"
 },
 "C08": {
  "scope": "exact arithmetic (R = real numbers); matrix-to-quaternion contract",
  "note": "as C07; the component of up orthogonal to the line of sight is expressed with Gram-Schmidt in the statement"
 },
 "C09": {
  "scope": "exact arithmetic (R = real numbers)",
  "note": "rotation of the standard basis; statement in dot and cross products"
 },
 "C10": {
  "scope": "exact arithmetic (R = real numbers)",
  "note": "field arithmetic per row; hypotheses only fx, fy nonzero"
 },
 "C11": {
  "scope": "exact arithmetic (R = real numbers)",
  "note": "closed form of the loop body compared with Spec.pinhole; converse direction by solving for the ratio of coordinates"
 },
 "C12": {
  "scope": "exact arithmetic (R = real numbers)",
  "note": "field arithmetic per row; hypotheses only sx, sy nonzero"
 },
 "C13": {
  "scope": "exact arithmetic (R = real numbers)",
  "note": "Camera is generic in the IntrinsicParameters class; the hypothesis is the round trip of the intrinsics alone, instantiated for both built-in models"
 },
 "C14": {
  "scope": "exact arithmetic (R = real numbers)",
  "note": "closed forms of pixel_to_camera and to_pose"
 },
 "C15": {
  "scope": "exact arithmetic (R = real numbers)",
  "note": "C11/C12 plus C02: the point minus the ray centre is a multiple of the direction"
 },
 "C16": {
  "scope": "exact arithmetic (R = real numbers)",
  "note": "square-root algebra; distance from Spec.distance; nonzero direction, nonnegative distance where needed"
 },
 "C17": {
  "scope": "exact arithmetic (R = real numbers)",
  "note": "linearity of the rotation"
 },
 "C18": {
  "scope": "any scalar type",
  "note": "row-wise closed forms of centers/directions/to_single_ray/point_on_ray"
 },
 "C19": {
  "scope": "exact arithmetic (R = real numbers)",
  "note": "approx::relative_ne modelled branch by branch with its default epsilon; equivalence with an explicit tolerance condition"
 },
 "C20": {
  "scope": "exact arithmetic (R = real numbers)",
  "note": "homogeneous projection written out in the statement"
 },
 "C21": {
  "scope": "exact arithmetic (R = real numbers)",
  "note": "as_camera_matrix times homogeneous point equals homogeneous pixel, origin not in the principal plane; the depth sign is characterised"
 },
 "C22": {
  "scope": "any type obeying the special-value rules `Ieee`",
  "note": "division of a zero by a zero entry is NaN; uses special-value laws only, so holds for f32 and f64 as rounded"
 },
 "C23": {
  "scope": "exact arithmetic (R = real numbers); QR and matrix-to-quaternion contracts",
  "note": "RQ factorization from the QR contract, sign flips, camera centre by determinants; projection compared homogeneously"
 },
 "C24": {
  "scope": "exact arithmetic (R = real numbers); QR and matrix-to-quaternion contracts",
  "note": "as C23; diagonal positive after the flips, determinant of the rotation is +1"
 },
 "C25": {
  "scope": "exact arithmetic (R = real numbers); QR and matrix-to-quaternion contracts",
  "note": "uniqueness of RQ with positive diagonal"
 },
 "C26": {
  "scope": "exact arithmetic (R = real numbers); QR and matrix-to-quaternion contracts",
  "note": "uniqueness of RQ; quaternion equal up to sign, all observable accessors equal"
 },
 "C27": {
  "scope": "exact arithmetic (R = real numbers)",
  "note": "`HasFDerivAt` of the pixel coordinates as functions on R^3 (Mathlib calculus)"
 },
 "C28": {
  "scope": "exact arithmetic (R = real numbers)",
  "note": "kernel of the 2x3 matrix computed; both inclusions"
 },
 "C29": {
  "scope": "any type obeying `Ieee`",
  "note": "as C22"
 },
 "C30": {
  "scope": "any scalar type, any SVD routine",
  "note": "case analysis on the outcome monad; panics characterised by failing float conversion"
 },
 "C31": {
  "scope": "exact arithmetic (R = real numbers); SVD contract",
  "note": "normal equations are equivalent to minimal sum of squared point-line distances (inf over the line); truncated pseudo-inverse is the inverse for spread rays"
 },
 "C32": {
  "scope": "exact arithmetic (R = real numbers); SVD contract",
  "note": "common point has cost 0; uniqueness from C31"
 },
 "C33": {
  "scope": "exact arithmetic (R = real numbers); any SVD routine",
  "note": "the sums forming the normal equations are invariant under permutation"
 },
 "C34": {
  "scope": "exact arithmetic (R = real numbers); any SVD routine",
  "note": "each summand of the normal equations depends on the line only"
 },
 "C35": {
  "scope": "exact arithmetic (R = real numbers); SVD contract",
  "note": "cost is invariant under isometries"
 },
 "C36": {
  "scope": "exact arithmetic (R = real numbers); SVD contract",
  "note": "projection on kept singular directions (`Keep`); cost excess bounded by cutoff"
 },
 "C37": {
  "scope": "exact arithmetic (R = real numbers); SVD contract",
  "note": "explicit family of crossing rays with a lost bisector component"
 },
 "C38": {
  "scope": "exact arithmetic (R = real numbers); SVD contract",
  "note": "C15 + C32, for perspective cameras and for mixed camera types"
 },
 "C39": {
  "scope": "any scalar type with lossless scalar serialization",
  "note": "structural; serialized trees and visitors of Model/Serde"
 },
 "C40": {
  "scope": "any scalar type",
  "note": "both hand-written visitors modelled statement by statement; induction over the entry list; the error reported is stated for every prefix of faultless entries"
 },
 "C41": {
  "scope": "any scalar type",
  "note": "every constructor incl. deserialization builds the cache from params/rotation+centre; observable functions agree"
 },
 "C42": {
  "scope": "exact arithmetic (R = real numbers) (acceptance: any scalar)",
  "note": "deserialized quaternion is used as is; explicit counterexample and exact size of the defect"
 },
 "C43": {
  "scope": "natural numbers with usize overflow as panic; round trip in exact arithmetic (R = real numbers)",
  "note": "range iterator modelled by its next(); induction on remaining range"
 },
 "C44": {
  "scope": "any type obeying the `Rounding` laws",
  "note": "error calculus in Lemmas/Rounding"
 },
 "C45": {
  "scope": "any type obeying `Ieee`",
  "note": "non-finite values propagate through sums and products"
 },
 "C46": {
  "scope": "any type obeying `Ieee`",
  "note": "division by zero never gives a finite value"
 },
 "C47": {
  "scope": "any type obeying `Rounding`",
  "note": "error calculus, backward comparison with the exact motion of the stored quaternion and centre"
 },
 "C48": {
  "scope": "any type obeying `Rounding`",
  "note": "error calculus"
 },
 "C49": {
  "scope": "any type obeying `Rounding`",
  "note": "C47 + C48 with perturbation of a quotient"
 },
 "C50": {
  "scope": "exact arithmetic (R = real numbers)",
  "note": "composition of quaternions"
 },
 "C51": {
  "scope": "exact arithmetic (R = real numbers)",
  "note": "a unit quaternion is determined up to sign by its rotation"
 },
 "C52": {
  "scope": "exact arithmetic (R = real numbers)",
  "note": "pixel expressed with dot products with right(), up(), forward() of the offset from camcenter()"
 },
 "C53": {
  "scope": "exact arithmetic (R = real numbers)",
  "note": "explicit families of points with the same pixel"
 },
 "C54": {
  "scope": "exact arithmetic (R = real numbers)",
  "note": "collinearity of images; limit along the ray (`Tendsto`)"
 },
 "C55": {
  "scope": "exact arithmetic (R = real numbers)",
  "note": "exact remainder formula: error = - depth change over depth times linear term"
 },
 "C56": {
  "scope": "exact arithmetic (R = real numbers)",
  "note": "closed form; the sign correction branch is shown never to change the result"
 },
 "C57": {
  "scope": "exact arithmetic (R = real numbers)",
  "note": "recovers all parameters from the pixels of all points"
 },
 "C58": {
  "scope": "exact arithmetic (R = real numbers); SVD contract",
  "note": "uniqueness from C31"
 },
 "C59": {
  "scope": "exact arithmetic (R = real numbers); SVD contract (linearity: any SVD)",
  "note": "costs add; linear dependence of the right-hand side"
 },
 "C60": {
  "scope": "exact arithmetic (R = real numbers); SVD contract",
  "note": "quadratic form bounded below by 1-|cos|; perturbation of normal equations"
 },
 "C61": {
  "scope": "exact arithmetic (R = real numbers); inexact SVD contract",
  "note": "pseudo-inverse of a nearby matrix; relative residual"
 },
 "C62": {
  "scope": "any type obeying `Ieee`, any SVD routine",
  "note": "bad value reaches an entry of S, hence every entry of the result or the SVD"
 },
 "C63": {
  "scope": "exact arithmetic (R = real numbers); matrix-to-quaternion contract",
  "note": "closed form of the rotation rows"
 },
 "C64": {
  "scope": "exact arithmetic (R = real numbers) except the constant pi; matrix-to-quaternion contract",
  "note": "half turn with an arbitrary angle"
 },
 "C65": {
  "scope": "any scalar (composition); exact arithmetic (R = real numbers) (inverse)",
  "note": "closed forms of to_pose"
 },
 "C66": {
  "scope": "exact arithmetic (R = real numbers)",
  "note": "polynomial identities in the quaternion coefficients"
 },
 "C67": {
  "scope": "any type obeying `Rounding`",
  "note": "error calculus over pixel_to_camera, to_pose, point_on_ray, world_to_camera, camera_to_pixel; explicit f64 figures"
 },
 "C68": {
  "scope": "exact arithmetic (R = real numbers)",
  "note": "C43 grid plus commutation of frame change (C17) and C02"
 },
 "C69": {
  "scope": "any two types obeying `Rounding`, `RoundingMore`, `RoundingConv`; backward stable SVD",
  "note": "error calculus over normalization, normal equations, pseudo-inverse and final product; perturbation bound of C60"
 },
 "C70": {
  "scope": "exact arithmetic (R = real numbers); NaN part: any type with `Ieee` and unequal NaN",
  "note": "derived comparisons modelled field by field (nalgebra unit quaternions compare up to sign); identifiability from C51 and C57"
 },
 "C71": {
  "scope": "exact arithmetic (R = real numbers) (infinity: any bound on the pixels)",
  "note": "folds of min/max over the edge list, then linear arithmetic; output file is the list of drawn elements"
 },
 "C72": {
  "scope": "any type obeying `Rounding`",
  "note": "error calculus over rotation matrix, translation, product and division; the sign flip cancels and the divisor is exact"
 },
 "C73": {
  "scope": "any type obeying `Rounding` and `RoundingPowi`, squared depth not overflowing",
  "note": "error calculus on top of C72, quotients and reciprocal square with inexact divisor"
 },
 "C74": {
  "scope": "any type obeying `Ieee`; coinciding points, axis-parallel views and overflow also use `Ieee.Zeros`; up-vector cases use nalgebra's conversion `shepperd`",
  "note": "non-finite values reach one component of a quaternion factor, hence every component of the product, hence every entry derived from it"
 },
 "C75": {
  "scope": "any type obeying `Ieee`, any linear algebra routines",
  "note": "division by a zero determinant, or a non-finite entry reaching three of the four minors; the bad centre coordinate reaches every translation entry"
 },
 "C76": {
  "scope": "any type obeying `Rounding`, `RoundingMore`, `RoundingView`; nalgebra's conversion modelled by `shepperd`",
  "note": "stepwise error bounds for the axes of face_towards; every branch of the conversion is Lipschitz where its denominator is bounded below, which the branch conditions ensure; the half turn and the quaternion product; then the pose bounds of C47"
 },
 "C77": {
  "scope": "any type obeying `Rounding` and `RoundingRange`; both are proved for the IEEE 754 model `RustFloat`",
  "note": "calculus of magnitudes 2^k over every operation; the computed depth is bounded below by the error bounds of C47 and C67"
 },
 "C78": {
  "scope": "`f64` and `f32` as modelled by `RustFloat` (bit-exact IEEE 754, round to nearest even)",
  "note": "C49, C67 and C77 at the two formats; no hypothesis about results or about an abstract arithmetic is left"
 },
 "C79": {
  "scope": "any type obeying the rounding and range laws; then `f64` and `f32` as modelled by `RustFloat` with an accurate `Libm`",
  "note": "magnitudes of every intermediate result of face_towards, normalization, the conversion to a quaternion and the product, using the error bounds of C76 step by step; then C76 and C77 without finiteness hypotheses"
 },
 "C80": {
  "scope": "any type obeying the rounding and range laws; then `f64` and `f32` as modelled by `RustFloat`",
  "note": "error analysis of nalgebra's Householder QR (each step a near-orthogonal map with explicit constants), of the flips and signs of rq, of the determinants in pmat2cam_center and of the conversion to a quaternion; every intermediate result is bounded, so finiteness is a conclusion"
 },
 "C81": {
  "scope": "`f64` as modelled by `RustFloat`",
  "note": "C80 gives a camera near an exact camera that reproduces the rows of the matrix; the homogeneous images then differ by a multiple of row length times distance, and C47, C48, C77 bound the computed projection"
 },
 "C82": {
  "scope": "exact arithmetic (R = real numbers); nalgebra's SVD as modelled in Model/Svd3",
  "note": "implicit QR steps keep an orthonormal basis tridiagonal and shrink the off-diagonal by 8/27 per step (Wilkinson shift); trace and norm of the normal equations exclude two small singular values; QR of the sorted columns is nearly diagonal; perturbation of the pseudo-inverse"
 },
 "C83": {
  "scope": "any two types obeying the rounding and range laws; then `f64` and `f32` as modelled by `RustFloat`; nalgebra's SVD as modelled in Model/Svd3",
  "note": "floating-point error analysis of tridiagonalization, Wilkinson shift and Givens sweeps; the product off0^2 off1^4 of the computed off-diagonal shrinks by 3/10 per sweep down to the threshold; the accumulated rotations stay near orthogonal and decompose a nearby Gram matrix; QR of the sorted columns, the last of which may vanish; then C69 with all intermediate results bounded"
 },
 "C84": {
  "scope": "exact arithmetic (R = real numbers); then `f64` and `f32` as modelled by `RustFloat`; nalgebra's SVD",
  "note": "comparison of least-squares costs with the lower bound 1-|cos| of the quadratic form; then C82, C83"
 },
 "C85": {
  "scope": "`f64` as modelled by `RustFloat`; nalgebra's SVD as modelled in Model/Svd3",
  "note": "error bounds of direction and centre of the ray of a pixel (C48, C47) with finiteness from C77; the ray passes near the point and has nearly the right direction; then C84; for computed pixels C49 gives sigma = 1.1e-10"
 },
 "C86": {
  "scope": "any scalar, any number formatting that is injective and free of separators; builders of core::fmt modelled",
  "note": "unique parsing: a common continuation determines value and rest, field by field, also through the indentation of the alternate format"
 },
 "C87": {
  "scope": "`f64` as modelled by `RustFloat`",
  "note": "the error calculus of C72 and C73, with magnitudes of the rotation matrix that use the norm of the quaternion and separate magnitudes for the rows and columns of K [R | t]; the Jacobian is invariant under scaling of the matrix, so the computed divisor needs no accuracy; finiteness by the magnitude calculus of C77"
 },
 "C88": {
  "scope": "`f64` as modelled by `RustFloat`; nalgebra's SVD as modelled in Model/Svd3",
  "note": "the ray of a pixel starts near the point's offset (C48) and runs along the optical axis up to rounding (C47), finiteness from C77; then C84 as in C85 for a list of cameras of both kinds; the round trip is C67 with C77"
 },
 "C89": {
  "scope": "any two types obeying the rounding and range laws; then `f64` as modelled by `RustFloat` (f32 noise exceeds the cutoff, there only C83's finiteness holds); nalgebra's SVD as modelled in Model/Svd3",
  "note": "the least singular value is below the length of the image of any unit vector up to the error of the decomposition, so it is cut off; its singular vector is then near beta; error calculus of the two remaining terms of the pseudo-inverse"
 },
 "C90": {
  "scope": "`f64`, `f32` and every binary format as modelled by `RustFloat`, with EPSILON as the tolerance; approx's relative_ne modelled; the bound on the pixel in exact arithmetic",
  "note": "next to one, differences are exact and multiples of EPSILON, so the rounded comparison decides the exact one; far away both tolerances are too small; NaN and infinities by cases; quotient estimate for the pixel"
 },
 "C91": {
  "scope": "`f64` and `f32` as modelled by `RustFloat`",
  "note": "error of the norm (8 u) through quotient, product and sum, finiteness from the range laws; the camera statements add the distance of the computed ray from the point (C85, C88)"
 },
 "C92": {
  "scope": "`f64` and `f32` as modelled by `RustFloat`; nalgebra's SVD as modelled in Model/Svd3",
  "note": "the ray of a pixel stays in range (C77) and its direction keeps a length of at least 0.98 (C47); then C83"
 },
 "C93": {
  "scope": "`f64` as modelled by `RustFloat`; nalgebra's QR and Shepperd's method as modelled",
  "note": "the matrix of as_camera_matrix is, up to one common factor, within 1e-13 per row of K[R|t] (C87's tools); hence it is in the class of C80 with kappa = 1/1000, with a null point near the centre (Cramer); C81 bounds the new camera's pixels, C47/C49 the old one's"
 },
 "C94": {
  "scope": "`f32` and `f64` as modelled by `RustFloat`, every bit pattern",
  "note": "rounding commutes with negation, so sign changes cancel operation by operation; the relation `Same` (equal up to the sign of zero) is preserved by addition, multiplication and, unless a zero is divided by, division; products with 0 and 1 and sums with 0 are exact"
 },
 "C95": {
  "scope": "`f64` and `f32` as modelled by `RustFloat`; nalgebra's SVD as modelled in Model/Svd3",
  "note": "the sum of squared distances depends only on the set of lines, so both lists have the same least-squares point, and the angles agree; C83 for each list; for disturbed rays C60 bounds the distance of the two least-squares points"
 },
 "C96": {
  "scope": "bit-level `f64`/`f32` (`Flt`) `from_rotation_and_camcenter`, `world_to_camera`, `camera_to_world`, `right`, `up`, `forward`",
  "note": "C47's bounds with the concrete constants, finiteness from C77, `abs_len_rotate` (a nearly unit quaternion nearly keeps lengths) and `exact_trip`; the axes by `lookdir_near` (difference of the moved point and the centre, then `normalize`); NaN far away by `Format.rnd_absorb`: numbers above `2^(p+1)` are multiples of four, so adding one rounds back"
 },
 "C97": {
  "scope": "any scalar type and token type; derived `Deserialize` as modelled by `visitEntries`/`requiredField`/`visitElements`/`structFields`",
  "note": "`HasField` (exactly one entry with that key) is stated on the list itself and shown equivalent to the model's lookup; each type by destructuring its field list; unknown keys by induction over the entries; errors by `visitEntries_append`: entries without a fault are passed over, so the first one with a fault decides (`FirstFault`)"
 },
 "C98": {
  "scope": "render_wireframe and SvgWriter (Model/RenderCube.lean) instantiated with the IEEE 754 f64 of Model/Float.lean; INFINITY, min and max are any functions with the documented behaviour (Spec.IsF64Order); the pixel coordinates are those the f64 camera computes, whatever camera it is. Number formatting is not modelled.",
  "note": "The extremes found by the folds are finite coordinates (fold_min_finite, fold_max_finite); each quotient is within 5u of the exact scale or +inf for a flat axis (scale_near); the smaller one is chosen (scale_choice); rounding of the affine map (coord_near). Hypothesis WideOrFlat: an axis all of whose coordinates are zeros must not mix +0 and -0, because f64::min and f64::max may then return zeros whose difference is -0."
 },
 "C99": {
  "scope": "`f32` as modelled by `RustFloat`; nalgebra's SVD as modelled in Model/Svd3, run in f64",
  "note": "as C85 with the constants of f32: the ray of a pixel passes near the point and has nearly the right direction, then the f32 statement of C84; finiteness from C77 with the smaller exponent range"
 },
 "C100": {
  "scope": "`f32` as modelled by `RustFloat`",
  "note": "as C87, with magnitudes of the rotation matrix that use the norm of the quaternion; finiteness within the exponent range of f32"
 },
 "C101": {
  "scope": "`f32` as modelled by `RustFloat`; nalgebra's SVD as modelled in Model/Svd3, run in f64",
  "note": "as C88 with the constants of f32 and the sharper magnitudes of rotations in Lemmas/RoundingTight; the round trip compares the computed point with the exact ray and applies the bound for world_to_pixel"
 },
 "C102": {
  "scope": "bit-level `f64`/`f32` (`Flt`); the pose, the intrinsics and the round trip through `point_on_ray`",
  "note": "entrywise errors of the frame changes with the sharp magnitudes of Lemmas/RoundingTight, then the error of the division by the depth; the round trip reuses the norm bound for a nearly unit quaternion and c67_perspective_of_error; finiteness from C77"
 },
 "C103": {
  "scope": "real scalars; perspective cameras with unit quaternions, SVD by its contract",
  "note": "C15 and the pinhole formula give the set of points of a pixel; coplanar vectors by the identity of Grassmann; images of three points are collinear iff their triple product vanishes, which rotations preserve; different centres: a direction transversal to three given vectors from a nonzero polynomial"
 },
 "C104": {
  "scope": "f64 with IEEE 754 arithmetic (F64 lib) and the modelled SVD; cameras given by the arguments of from_view",
  "note": "C76 bounds the computed quaternion against a unit quaternion of the exact view; the directions in the camera frame are those of C85; the rays pass near the point and in the right direction, and C84 gives the intersection. For computed pixels C85 is used with a rotation of unit norm up to 1.6e-13"
 },
 "C105": {
  "scope": "`f64` and `f32` as modelled by `RustFloat` with an accurate `Libm`",
  "note": "C76 bounds the computed quaternion against a unit quaternion of the exact view; the error of an axis in terms of the defect of the quaternion is that of C96; C07 and C08 identify the exact axes"
 },
 "C106": {
  "scope": "`f32` as modelled by `RustFloat` with an accurate `Libm`, the SVD in `f64`",
  "note": "C76 bounds the computed quaternion against a unit quaternion of the exact view, in the length of quaternions; the directions in the camera frame are those of C99; the rays pass near the point and in the right direction, and C84 gives the intersection"
 },
 "C107": {
  "scope": "`f64` and `f32` as modelled by `RustFloat`, the SVD in `f64`",
  "note": "C85 and C99 give a point near the true one; slopes of nearby points differ by at most 10.6 times their distance over the depth; the rounding error of the projection is that of C85 and C99 applied to the point found; for cameras placed by `from_view` the same with C104, C106 and the pixel bounds of C79; with orthographic cameras C88 and C101, whose images of nearby points differ by their distance times the scale"
 },
 "C108": {
  "scope": "real scalars; cameras with unit quaternions, SVD by its contract",
  "note": "C14 and C15 give the line of a pixel; coplanarity by explicit coefficients from the cross product; C32 for the intersection; images of lines by linearity"
 },
 "C109": {
  "scope": "real scalars; perspective cameras with unit quaternions",
  "note": "pixels in homogeneous coordinates; on the plane the change of centre is the linear map 1 + b n\u1d40 / \u03b4, whose determinant is the ratio of the distances of the centres from the plane; converse from C103"
 },
 "C110": {
  "scope": "real scalars; perspective cameras with unit quaternions",
  "note": "kernel of one Jacobian from C28, derivative from C27, exact remainder from C55 (the Jacobian at y maps y - x to the pixel difference scaled by the depth ratio), Cauchy-Schwarz; lines of sight from C103; local quadratic convergence from continuity of the Jacobians and of the inverse normal matrix"
 },
 "C111": {
  "scope": "real scalars; unit quaternions",
  "note": "the image of a weighted mean is a weighted mean of the images with weights multiplied by the depths; the inverse change of weights gives the other inclusion"
 },
 "C112": {
  "scope": "real scalars; unit quaternions",
  "note": "the direction expressed in the orthonormal axes (C09); coefficients of a direction determine the pixel"
 },
 "C113": {
  "scope": "real scalars; unit quaternions; SVD contract for the triangulation",
  "note": "camera coordinates of the second camera are those of the first minus (b, 0, 0); C103, C32"
 },
 "C114": {
  "scope": "real scalars; unit quaternions; SVD contract for the second part",
  "note": "the points shown in a pixel are the line of its ray (C103, C108) up to one point; the exceptions are finitely many; C32"
 },
 "C115": {
  "scope": "real scalars; unit quaternions; SVD contract for the last part",
  "note": "coordinates along the axes of the camera (C52, C112); Cauchy-Schwarz for the lower bound; C31"
 },
 "C116": {
  "scope": "real scalars; unit quaternions",
  "note": "triple products are invariant under the rotation of the pose (determinant 1)"
 },
 "C117": {
  "scope": "real scalars; unit quaternions",
  "note": "camera coordinates of the camera moved back are those of the orthographic camera plus (0, 0, D)"
 },
 "C118": {
  "scope": "real scalars; built-in cameras with unit quaternions",
  "note": "closed form of the depth and the pixel along the motion (pinhole formula of C11 in rotated coordinates)"
 },
 "C119": {
  "scope": "real scalars; built-in cameras; the statements about rays need no assumption on the pose",
  "note": "closed forms of projection and rays; a rotation matrix that fixes the third axis is a planar rotation"
 },
 "C120": {
  "scope": "real scalars; built-in cameras with unit quaternions; nonnegative radius for the perspective case",
  "note": "points of a pixel from C103, point of the ray closest to the centre of the ball"
 }
}
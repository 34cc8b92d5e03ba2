{
 "claims": [
  {
   "property": "C01",
   "status": "proved",
   "theorems": [
    "CamGeom.c01_world_to_camera",
    "CamGeom.c01_camera_to_world",
    "CamGeom.c01_persp_camera_to_pixel",
    "CamGeom.c01_persp_pixel_to_camera",
    "CamGeom.c01_ortho_camera_to_pixel",
    "CamGeom.c01_ortho_pixel_to_camera",
    "CamGeom.c01_persp_world_to_pixel",
    "CamGeom.c01_ortho_world_to_pixel",
    "CamGeom.c01_persp_pixel_to_world",
    "CamGeom.c01_ortho_pixel_to_world",
    "CamGeom.c01_so_point_on_ray",
    "CamGeom.c01_sd_point_on_ray",
    "CamGeom.c01_to_pose"
   ],
   "note": "any scalar type: every per-point loop is a fold writing single matrix entries; induction over the fold shows output row i is a fixed function of input row i; no arithmetic law is used"
  },
  {
   "property": "C02",
   "status": "proved",
   "theorems": [
    "CamGeom.c02_world_camera_world",
    "CamGeom.c02_camera_world_camera"
   ],
   "note": "exact arithmetic (R = real numbers): unit quaternion rotation is inverted by its conjugate (Lemmas/Quaternion); applied per row to the pose stored in the cache"
  },
  {
   "property": "C03",
   "status": "proved",
   "theorems": [
    "CamGeom.c03_distance",
    "CamGeom.c03_signed_volume"
   ],
   "note": "exact arithmetic (R = real numbers): rotation preserves dot and cross products; distance and determinant of differences from the independent definitions in Spec/Geometry"
  },
  {
   "property": "C04",
   "status": "proved",
   "theorems": [
    "CamGeom.c04_camcenter",
    "CamGeom.c04_optical_centre",
    "CamGeom.c04_origin_to_world"
   ],
   "note": "exact arithmetic (R = real numbers): algebra on the cached pose and its inverse"
  },
  {
   "property": "C05",
   "status": "proved",
   "theorems": [
    "CamGeom.c05_accessors_agree",
    "CamGeom.c05_translation_rotation"
   ],
   "note": "exact arithmetic (R = real numbers): matrix(), rotation(), translation() and pose() are each compared with world_to_camera on every point"
  },
  {
   "property": "C06",
   "status": "proved",
   "theorems": [
    "CamGeom.c06_pose_fromPose",
    "CamGeom.c06_fromPose_pose",
    "CamGeom.c06_fromPose_valid"
   ],
   "note": "exact arithmetic (R = real numbers): from_pose(pose()) and pose(from_pose()) as equations between structures; validity preserved"
  },
  {
   "property": "C07",
   "status": "proved",
   "theorems": [
    "CamGeom.c07_looks_at",
    "CamGeom.c07_principal_point"
   ],
   "note": "exact arithmetic (R = real numbers); matrix-to-quaternion contract: face_towards matrix is proved a rotation, the contract turns it into a quaternion, the half turn about z is computed with cos/sin of pi"
  },
  {
   "property": "C08",
   "status": "proved",
   "theorems": [
    "CamGeom.c08_up_right",
    "CamGeom.c08_up_in_image"
   ],
   "note": "exact arithmetic (R = real numbers); matrix-to-quaternion contract: as C07; the component of up orthogonal to the line of sight is expressed with Gram-Schmidt in the statement"
  },
  {
   "property": "C09",
   "status": "proved",
   "theorems": [
    "CamGeom.c09_orthonormal",
    "CamGeom.c09_camera_axes"
   ],
   "note": "exact arithmetic (R = real numbers): rotation of the standard basis; statement in dot and cross products"
  },
  {
   "property": "C10",
   "status": "proved",
   "theorems": [
    "CamGeom.c10_roundtrip",
    "CamGeom.c10_roundtrip_at_distance"
   ],
   "note": "exact arithmetic (R = real numbers): field arithmetic per row; hypotheses only fx, fy nonzero"
  },
  {
   "property": "C11",
   "status": "proved",
   "theorems": [
    "CamGeom.c11_pinhole",
    "CamGeom.c11_scale_invariant",
    "CamGeom.c11_same_pixel_iff"
   ],
   "note": "exact arithmetic (R = real numbers): closed form of the loop body compared with Spec.pinhole; converse direction by solving for the ratio of coordinates"
  },
  {
   "property": "C12",
   "status": "proved",
   "theorems": [
    "CamGeom.c12_formula",
    "CamGeom.c12_same_pixel_iff",
    "CamGeom.c12_roundtrip_any_point",
    "CamGeom.c12_roundtrip"
   ],
   "note": "exact arithmetic (R = real numbers): field arithmetic per row; hypotheses only sx, sy nonzero"
  },
  {
   "property": "C13",
   "status": "proved",
   "theorems": [
    "CamGeom.c13_roundtrip",
    "CamGeom.c13_roundtrip_at_distance",
    "CamGeom.c13_perspective",
    "CamGeom.c13_orthographic"
   ],
   "note": "exact arithmetic (R = real numbers): Camera is generic in the IntrinsicParameters class; the hypothesis is the round trip of the intrinsics alone, instantiated for both built-in models"
  },
  {
   "property": "C14",
   "status": "proved",
   "theorems": [
    "CamGeom.c14_perspective",
    "CamGeom.c14_orthographic"
   ],
   "note": "exact arithmetic (R = real numbers): closed forms of pixel_to_camera and to_pose"
  },
  {
   "property": "C15",
   "status": "proved",
   "theorems": [
    "CamGeom.c15_perspective",
    "CamGeom.c15_orthographic"
   ],
   "note": "exact arithmetic (R = real numbers): C11/C12 plus C02: the point minus the ray centre is a multiple of the direction"
  },
  {
   "property": "C16",
   "status": "proved",
   "theorems": [
    "CamGeom.c16_shared_origin",
    "CamGeom.c16_shared_direction"
   ],
   "note": "exact arithmetic (R = real numbers): square-root algebra; distance from Spec.distance; nonzero direction, nonnegative distance where needed"
  },
  {
   "property": "C17",
   "status": "proved",
   "theorems": [
    "CamGeom.c17_shared_origin",
    "CamGeom.c17_shared_direction"
   ],
   "note": "exact arithmetic (R = real numbers): linearity of the rotation"
  },
  {
   "property": "C18",
   "status": "proved",
   "theorems": [
    "CamGeom.c18_shared_origin",
    "CamGeom.c18_shared_direction",
    "CamGeom.c18_single_ray",
    "CamGeom.c18_constructors"
   ],
   "note": "any scalar type: row-wise closed forms of centers/directions/to_single_ray/point_on_ray"
  },
  {
   "property": "C19",
   "status": "proved",
   "theorems": [
    "CamGeom.c19_ok_iff",
    "CamGeom.c19_result"
   ],
   "note": "exact arithmetic (R = real numbers): approx::relative_ne modelled branch by branch with its default epsilon; equivalence with an explicit tolerance condition"
  },
  {
   "property": "C20",
   "status": "proved",
   "theorems": [
    "CamGeom.c20_projects_alike",
    "CamGeom.c20_feed_back"
   ],
   "note": "exact arithmetic (R = real numbers): homogeneous projection written out in the statement"
  },
  {
   "property": "C21",
   "status": "proved",
   "theorems": [
    "CamGeom.c21_projects_alike",
    "CamGeom.c21_depth"
   ],
   "note": "exact arithmetic (R = real numbers): as_camera_matrix times homogeneous point equals homogeneous pixel, origin not in the principal plane; the depth sign is characterised"
  },
  {
   "property": "C22",
   "status": "proved",
   "theorems": [
    "CamGeom.c22_origin_in_principal_plane",
    "CamGeom.c22_camera_at_origin",
    "CamGeom.c22_otherwise_one"
   ],
   "note": "any type obeying the special-value rules `Ieee`: division of a zero by a zero entry is NaN; uses special-value laws only, so holds for f32 and f64 as rounded"
  },
  {
   "property": "C23",
   "status": "proved",
   "theorems": [
    "CamGeom.c23_reproduces",
    "CamGeom.c23_nalgebra"
   ],
   "note": "exact arithmetic (R = real numbers); QR and matrix-to-quaternion contracts: RQ factorization from the QR contract, sign flips, camera centre by determinants; projection compared homogeneously"
  },
  {
   "property": "C24",
   "status": "proved",
   "theorems": [
    "CamGeom.c24_never_fails",
    "CamGeom.c24_positive_proper"
   ],
   "note": "exact arithmetic (R = real numbers); QR and matrix-to-quaternion contracts: as C23; diagonal positive after the flips, determinant of the rotation is +1"
  },
  {
   "property": "C25",
   "status": "proved",
   "theorems": [
    "CamGeom.c25_scale_sign"
   ],
   "note": "exact arithmetic (R = real numbers); QR and matrix-to-quaternion contracts: uniqueness of RQ with positive diagonal"
  },
  {
   "property": "C26",
   "status": "proved",
   "theorems": [
    "CamGeom.c26_same_camera",
    "CamGeom.c26_projects_alike",
    "CamGeom.c26_nalgebra"
   ],
   "note": "exact arithmetic (R = real numbers); QR and matrix-to-quaternion contracts: uniqueness of RQ; quaternion equal up to sign, all observable accessors equal"
  },
  {
   "property": "C27",
   "status": "proved",
   "theorems": [
    "CamGeom.c27_derivative"
   ],
   "note": "exact arithmetic (R = real numbers): `HasFDerivAt` of the pixel coordinates as functions on R^3 (Mathlib calculus)"
  },
  {
   "property": "C28",
   "status": "proved",
   "theorems": [
    "CamGeom.c28_kernel"
   ],
   "note": "exact arithmetic (R = real numbers): kernel of the 2x3 matrix computed; both inclusions"
  },
  {
   "property": "C29",
   "status": "proved",
   "theorems": [
    "CamGeom.c29_origin_in_principal_plane",
    "CamGeom.c29_camera_at_origin"
   ],
   "note": "any type obeying `Ieee`: as C22"
  },
  {
   "property": "C30",
   "status": "proved",
   "theorems": [
    "CamGeom.c30_too_few",
    "CamGeom.c30_two_or_more",
    "CamGeom.c30_outcomes",
    "CamGeom.c30_no_panic"
   ],
   "note": "any scalar type, any SVD routine: case analysis on the outcome monad; panics characterised by failing float conversion"
  },
  {
   "property": "C31",
   "status": "proved",
   "theorems": [
    "CamGeom.c31_least_squares"
   ],
   "note": "exact arithmetic (R = real numbers); SVD contract: normal equations are equivalent to minimal sum of squared point-line distances (inf over the line); truncated pseudo-inverse is the inverse for spread rays"
  },
  {
   "property": "C32",
   "status": "proved",
   "theorems": [
    "CamGeom.c32_common_point"
   ],
   "note": "exact arithmetic (R = real numbers); SVD contract: common point has cost 0; uniqueness from C31"
  },
  {
   "property": "C33",
   "status": "proved",
   "theorems": [
    "CamGeom.c33_order"
   ],
   "note": "exact arithmetic (R = real numbers); any SVD routine: the sums forming the normal equations are invariant under permutation"
  },
  {
   "property": "C34",
   "status": "proved",
   "theorems": [
    "CamGeom.c34_lines_only"
   ],
   "note": "exact arithmetic (R = real numbers); any SVD routine: each summand of the normal equations depends on the line only"
  },
  {
   "property": "C35",
   "status": "proved",
   "theorems": [
    "CamGeom.c35_rigid"
   ],
   "note": "exact arithmetic (R = real numbers); SVD contract: cost is invariant under isometries"
  },
  {
   "property": "C36",
   "status": "proved",
   "theorems": [
    "CamGeom.c36_bounded",
    "CamGeom.c36_parallel"
   ],
   "note": "exact arithmetic (R = real numbers); SVD contract: projection on kept singular directions (`Keep`); cost excess bounded by cutoff"
  },
  {
   "property": "C37",
   "status": "proved",
   "theorems": [
    "CamGeom.c37_bisector_lost",
    "CamGeom.c37_counterexample"
   ],
   "note": "exact arithmetic (R = real numbers); SVD contract: explicit family of crossing rays with a lost bisector component"
  },
  {
   "property": "C38",
   "status": "proved",
   "theorems": [
    "CamGeom.c38_triangulation",
    "CamGeom.c38_mixed"
   ],
   "note": "exact arithmetic (R = real numbers); SVD contract: C15 + C32, for perspective cameras and for mixed camera types"
  },
  {
   "property": "C39",
   "status": "proved",
   "theorems": [
    "CamGeom.c39_extrinsics",
    "CamGeom.c39_perspective",
    "CamGeom.c39_orthographic",
    "CamGeom.c39_camera",
    "CamGeom.c39_ray_bundle",
    "CamGeom.c39_ray_bundle_dyn",
    "CamGeom.c39_bundle_types"
   ],
   "note": "any scalar type with lossless scalar serialization: structural; serialized trees and visitors of Model/Serde"
  },
  {
   "property": "C40",
   "status": "proved",
   "theorems": [
    "CamGeom.c40_extrinsics_map",
    "CamGeom.c40_extrinsics_seq",
    "CamGeom.c40_perspective_map",
    "CamGeom.c40_perspective_seq",
    "CamGeom.c40_quat",
    "CamGeom.c40_vec3",
    "CamGeom.c40_other_forms",
    "CamGeom.c40_bad_keys",
    "CamGeom.c40_error_kind",
    "CamGeom.c40_array_errors",
    "CamGeom.c40_bad_values",
    "CamGeom.c40_extrinsics_errors",
    "CamGeom.c40_perspective_errors"
   ],
   "note": "any scalar type: both hand-written visitors modelled statement by statement; induction over the entry list; the error reported is stated for every prefix of faultless entries"
  },
  {
   "property": "C41",
   "status": "proved",
   "theorems": [
    "CamGeom.c41_extrinsics_cache",
    "CamGeom.c41_extrinsics_determined",
    "CamGeom.c41_extrinsics_views",
    "CamGeom.c41_intrinsics_cache",
    "CamGeom.c41_intrinsics_determined"
   ],
   "note": "any scalar type: every constructor incl. deserialization builds the cache from params/rotation+centre; observable functions agree"
  },
  {
   "property": "C42",
   "status": "proved",
   "theorems": [
    "CamGeom.c42_accepts_any",
    "CamGeom.c42_defect",
    "CamGeom.c42_not_unit",
    "CamGeom.c42_counterexample"
   ],
   "note": "exact arithmetic (R = real numbers) (acceptance: any scalar): deserialized quaternion is used as is; explicit counterexample and exact size of the defect"
  },
  {
   "property": "C43",
   "status": "proved",
   "theorems": [
    "CamGeom.c43_grid",
    "CamGeom.c43_mem_grid",
    "CamGeom.c43_row_by_row",
    "CamGeom.c43_panic_height",
    "CamGeom.c43_panic_width",
    "CamGeom.c43_no_rows",
    "CamGeom.c43_step_zero",
    "CamGeom.c43_panics_iff",
    "CamGeom.c43_assert_iff",
    "CamGeom.c43_perspective_passes",
    "CamGeom.c43_orthographic_passes",
    "CamGeom.c43_detects"
   ],
   "note": "natural numbers with usize overflow as panic; round trip in exact arithmetic (R = real numbers): range iterator modelled by its next(); induction on remaining range"
  },
  {
   "property": "C44",
   "status": "proved",
   "theorems": [
    "CamGeom.c44_orthographic",
    "CamGeom.c44_perspective_v",
    "CamGeom.c44_perspective_u"
   ],
   "note": "any type obeying the `Rounding` laws: error calculus in Lemmas/Rounding"
  },
  {
   "property": "C45",
   "status": "proved",
   "theorems": [
    "CamGeom.c45_world_to_camera",
    "CamGeom.c45_camera_to_world",
    "CamGeom.c45_persp_camera_to_pixel",
    "CamGeom.c45_persp_world_to_pixel",
    "CamGeom.c45_ortho_world_to_pixel",
    "CamGeom.c45_persp_pixel_to_world",
    "CamGeom.c45_ortho_pixel_to_world"
   ],
   "note": "any type obeying `Ieee`: non-finite values propagate through sums and products"
  },
  {
   "property": "C46",
   "status": "proved",
   "theorems": [
    "CamGeom.c46_principal_plane",
    "CamGeom.c46_zero_focal_length",
    "CamGeom.c46_zero_scale"
   ],
   "note": "any type obeying `Ieee`: division by zero never gives a finite value"
  },
  {
   "property": "C47",
   "status": "proved",
   "theorems": [
    "CamGeom.c47_world_to_camera",
    "CamGeom.c47_camera_to_world"
   ],
   "note": "any type obeying `Rounding`: error calculus, backward comparison with the exact motion of the stored quaternion and centre"
  },
  {
   "property": "C48",
   "status": "proved",
   "theorems": [
    "CamGeom.c48_perspective",
    "CamGeom.c48_orthographic",
    "CamGeom.c48_direction_v",
    "CamGeom.c48_direction_u",
    "CamGeom.c48_direction_z",
    "CamGeom.c48_orthographic_origin"
   ],
   "note": "any type obeying `Rounding`: error calculus"
  },
  {
   "property": "C49",
   "status": "proved",
   "theorems": [
    "CamGeom.c49_world_to_pixel"
   ],
   "note": "any type obeying `Rounding`: C47 + C48 with perturbation of a quotient"
  },
  {
   "property": "C50",
   "status": "proved",
   "theorems": [
    "CamGeom.c50_world_to_camera",
    "CamGeom.c50_world_to_pixel",
    "CamGeom.c50_perspective_rays",
    "CamGeom.c50_orthographic_rays",
    "CamGeom.c50_move_exists"
   ],
   "note": "exact arithmetic (R = real numbers): composition of quaternions"
  },
  {
   "property": "C51",
   "status": "proved",
   "theorems": [
    "CamGeom.c51_same_iff",
    "CamGeom.c51_quaternion_sign",
    "CamGeom.c51_negated_quaternion"
   ],
   "note": "exact arithmetic (R = real numbers): a unit quaternion is determined up to sign by its rotation"
  },
  {
   "property": "C52",
   "status": "proved",
   "theorems": [
    "CamGeom.c52_perspective",
    "CamGeom.c52_orthographic",
    "CamGeom.c52_every_point"
   ],
   "note": "exact arithmetic (R = real numbers): pixel expressed with dot products with right(), up(), forward() of the offset from camcenter()"
  },
  {
   "property": "C53",
   "status": "proved",
   "theorems": [
    "CamGeom.c53_behind",
    "CamGeom.c53_scale",
    "CamGeom.c53_orthographic_depth"
   ],
   "note": "exact arithmetic (R = real numbers): explicit families of points with the same pixel"
  },
  {
   "property": "C54",
   "status": "proved",
   "theorems": [
    "CamGeom.c54_perspective_lines",
    "CamGeom.c54_orthographic_lines",
    "CamGeom.c54_vanishing_point"
   ],
   "note": "exact arithmetic (R = real numbers): collinearity of images; limit along the ray (`Tendsto`)"
  },
  {
   "property": "C55",
   "status": "proved",
   "theorems": [
    "CamGeom.c55_exact_remainder",
    "CamGeom.c55_same_depth"
   ],
   "note": "exact arithmetic (R = real numbers): exact remainder formula: error = - depth change over depth times linear term"
  },
  {
   "property": "C56",
   "status": "proved",
   "theorems": [
    "CamGeom.c56_closed_form",
    "CamGeom.c56_jacobian_cache"
   ],
   "note": "exact arithmetic (R = real numbers): closed form; the sign correction branch is shown never to change the result"
  },
  {
   "property": "C57",
   "status": "proved",
   "theorems": [
    "CamGeom.c57_perspective",
    "CamGeom.c57_second_camera",
    "CamGeom.c57_sign_ambiguity",
    "CamGeom.c57_orthographic"
   ],
   "note": "exact arithmetic (R = real numbers): recovers all parameters from the pixels of all points"
  },
  {
   "property": "C58",
   "status": "proved",
   "theorems": [
    "CamGeom.c58_midpoint"
   ],
   "note": "exact arithmetic (R = real numbers); SVD contract: uniqueness from C31"
  },
  {
   "property": "C59",
   "status": "proved",
   "theorems": [
    "CamGeom.c59_add_through",
    "CamGeom.c59_union",
    "CamGeom.c59_linear"
   ],
   "note": "exact arithmetic (R = real numbers); SVD contract (linearity: any SVD): costs add; linear dependence of the right-hand side"
  },
  {
   "property": "C60",
   "status": "proved",
   "theorems": [
    "CamGeom.c60_stability"
   ],
   "note": "exact arithmetic (R = real numbers); SVD contract: quadratic form bounded below by 1-|cos|; perturbation of normal equations"
  },
  {
   "property": "C61",
   "status": "proved",
   "theorems": [
    "CamGeom.c61_inexact_svd"
   ],
   "note": "exact arithmetic (R = real numbers); inexact SVD contract: pseudo-inverse of a nearby matrix; relative residual"
  },
  {
   "property": "C62",
   "status": "proved",
   "theorems": [
    "CamGeom.c62_invalid_ray",
    "CamGeom.c62_at_distance_shared_origin",
    "CamGeom.c62_at_distance_shared_direction"
   ],
   "note": "any type obeying `Ieee`, any SVD routine: bad value reaches an entry of S, hence every entry of the result or the SVD"
  },
  {
   "property": "C63",
   "status": "proved",
   "theorems": [
    "CamGeom.c63_rotation_rows",
    "CamGeom.c63_determined",
    "CamGeom.c63_invariance",
    "CamGeom.c63_view_of_accessors",
    "CamGeom.c63_equivariance"
   ],
   "note": "exact arithmetic (R = real numbers); matrix-to-quaternion contract: closed form of the rotation rows"
  },
  {
   "property": "C64",
   "status": "proved",
   "theorems": [
    "CamGeom.c64_inexact_pi",
    "CamGeom.c64_principal_point"
   ],
   "note": "exact arithmetic (R = real numbers) except the constant pi; matrix-to-quaternion contract: half turn with an arbitrary angle"
  },
  {
   "property": "C65",
   "status": "proved",
   "theorems": [
    "CamGeom.c65_compose_shared_origin",
    "CamGeom.c65_compose_shared_direction",
    "CamGeom.c65_product",
    "CamGeom.c65_inverse_shared_origin",
    "CamGeom.c65_inverse_shared_direction"
   ],
   "note": "any scalar (composition); exact arithmetic (R = real numbers) (inverse): closed forms of to_pose"
  },
  {
   "property": "C66",
   "status": "proved",
   "theorems": [
    "CamGeom.c66_matrix_vs_pose",
    "CamGeom.c66_camcenter",
    "CamGeom.c66_distance"
   ],
   "note": "exact arithmetic (R = real numbers): polynomial identities in the quaternion coefficients"
  },
  {
   "property": "C67",
   "status": "proved",
   "theorems": [
    "CamGeom.c67_perspective_point",
    "CamGeom.c67_orthographic_point",
    "CamGeom.c67_perspective_of_error",
    "CamGeom.c67_perspective",
    "CamGeom.c67_orthographic",
    "CamGeom.c67_f64_bound",
    "CamGeom.c67_f64_pixel"
   ],
   "note": "any type obeying `Rounding`: error calculus over pixel_to_camera, to_pose, point_on_ray, world_to_camera, camera_to_pixel; explicit f64 figures"
  },
  {
   "property": "C68",
   "status": "proved",
   "theorems": [
    "CamGeom.c68_detects",
    "CamGeom.c68_pose_irrelevant",
    "CamGeom.c68_perspective_passes",
    "CamGeom.c68_orthographic_passes"
   ],
   "note": "exact arithmetic (R = real numbers): C43 grid plus commutation of frame change (C17) and C02"
  },
  {
   "property": "C69",
   "status": "proved",
   "theorems": [
    "CamGeom.c69_rounding_bound"
   ],
   "note": "any two types obeying `Rounding`, `RoundingMore`, `RoundingConv`; backward stable SVD: error calculus over normalization, normal equations, pseudo-inverse and final product; perturbation bound of C60"
  },
  {
   "property": "C70",
   "status": "proved",
   "theorems": [
    "CamGeom.c70_extrinsics",
    "CamGeom.c70_perspective_intrinsics",
    "CamGeom.c70_orthographic_intrinsics",
    "CamGeom.c70_ray_bundle",
    "CamGeom.c70_same_pose",
    "CamGeom.c70_pose_iff",
    "CamGeom.c70_perspective_cameras",
    "CamGeom.c70_same_camera",
    "CamGeom.c70_nan_centre",
    "CamGeom.c70_infinite_centre",
    "CamGeom.c70_nan_perspective",
    "CamGeom.c70_nan_orthographic",
    "CamGeom.c70_nan_camera"
   ],
   "note": "exact arithmetic (R = real numbers); NaN part: any type with `Ieee` and unequal NaN: derived comparisons modelled field by field (nalgebra unit quaternions compare up to sign); identifiability from C51 and C57"
  },
  {
   "property": "C71",
   "status": "proved",
   "theorems": [
    "CamGeom.c71_panics",
    "CamGeom.c71_rendering",
    "CamGeom.c71_perspective_principal_point",
    "CamGeom.c71_orthographic_position"
   ],
   "note": "exact arithmetic (R = real numbers) (infinity: any bound on the pixels): folds of min/max over the edge list, then linear arithmetic; output file is the list of drawn elements"
  },
  {
   "property": "C72",
   "status": "proved",
   "theorems": [
    "CamGeom.c72_camera_matrix",
    "CamGeom.c72_linearization_cache",
    "CamGeom.c72_simple"
   ],
   "note": "any type obeying `Rounding`: error calculus over rotation matrix, translation, product and division; the sign flip cancels and the divisor is exact"
  },
  {
   "property": "C73",
   "status": "proved",
   "theorems": [
    "CamGeom.c73_linearize"
   ],
   "note": "any type obeying `Rounding` and `RoundingPowi`, squared depth not overflowing: error calculus on top of C72, quotients and reciprocal square with inexact divisor"
  },
  {
   "property": "C74",
   "status": "proved",
   "theorems": [
    "CamGeom.c74_perspective",
    "CamGeom.c74_orthographic",
    "CamGeom.c74_no_direction",
    "CamGeom.c74_looks_at_itself",
    "CamGeom.c74_not_finite_argument",
    "CamGeom.c74_up_not_finite",
    "CamGeom.c74_up_parallel",
    "CamGeom.c74_up_zero",
    "CamGeom.c74_along_axis",
    "CamGeom.c74_distance_overflows"
   ],
   "note": "any type obeying `Ieee`; coinciding points, axis-parallel views and overflow also use `Ieee.Zeros`; up-vector cases use nalgebra's conversion `shepperd`: non-finite values reach one component of a quaternion factor, hence every component of the product, hence every entry derived from it"
  },
  {
   "property": "C75",
   "status": "proved",
   "theorems": [
    "CamGeom.c75_singular"
   ],
   "note": "any type obeying `Ieee`, any linear algebra routines: division by a zero determinant, or a non-finite entry reaching three of the four minors; the bad centre coordinate reaches every translation entry"
  },
  {
   "property": "C76",
   "status": "proved",
   "theorems": [
    "CamGeom.c76_quaternion",
    "CamGeom.c76_unit",
    "CamGeom.c76_rotation",
    "CamGeom.c76_world_to_camera",
    "CamGeom.c76_f64"
   ],
   "note": "any type obeying `Rounding`, `RoundingMore`, `RoundingView`; nalgebra's conversion modelled by `shepperd`: stepwise error bounds for the axes of face_towards; every branch of the conversion is Lipschitz where its denominator is bounded below, which the branch conditions ensure; the half turn and the quaternion product; then the pose bounds of C47"
  },
  {
   "property": "C77",
   "status": "proved",
   "theorems": [
    "CamGeom.c77_world_to_camera",
    "CamGeom.c77_camera_to_world",
    "CamGeom.c77_camera_to_pixel",
    "CamGeom.c77_pixel_to_camera",
    "CamGeom.c77_orthographic_camera_to_pixel",
    "CamGeom.c77_orthographic_pixel_to_camera",
    "CamGeom.c77_perspective_ray_point",
    "CamGeom.c77_orthographic_ray_point",
    "CamGeom.c77_world_to_pixel",
    "CamGeom.c77_perspective_roundtrip",
    "CamGeom.c77_orthographic_roundtrip"
   ],
   "note": "any type obeying `Rounding` and `RoundingRange`; both are proved for the IEEE 754 model `RustFloat`: calculus of magnitudes 2^k over every operation; the computed depth is bounded below by the error bounds of C47 and C67"
  },
  {
   "property": "C78",
   "status": "proved",
   "theorems": [
    "CamGeom.c78_f64_roundtrip",
    "CamGeom.c78_f64_world_to_pixel",
    "CamGeom.c78_f32_world_to_pixel"
   ],
   "note": "`f64` and `f32` as modelled by `RustFloat` (bit-exact IEEE 754, round to nearest even): C49, C67 and C77 at the two formats; no hypothesis about results or about an abstract arithmetic is left"
  },
  {
   "property": "C79",
   "status": "proved",
   "theorems": [
    "CamGeom.c79_rotation_finite",
    "CamGeom.c79_f64_world_to_camera",
    "CamGeom.c79_f64_rotation",
    "CamGeom.c79_f32_rotation",
    "CamGeom.c79_f32_world_to_camera",
    "CamGeom.c79_f64_world_to_pixel",
    "CamGeom.c79_f32_world_to_pixel",
    "CamGeom.c79_f64_lookat",
    "CamGeom.c79_f32_lookat"
   ],
   "note": "any type obeying the rounding and range laws; then `f64` and `f32` as modelled by `RustFloat` with an accurate `Libm`: magnitudes of every intermediate result of face_towards, normalization, the conversion to a quaternion and the product, using the error bounds of C76 step by step; then C76 and C77 without finiteness hypotheses"
  },
  {
   "property": "C80",
   "status": "proved",
   "theorems": [
    "CamGeom.c80_represents",
    "CamGeom.c80_f64",
    "CamGeom.c80_f32"
   ],
   "note": "any type obeying the rounding and range laws; then `f64` and `f32` as modelled by `RustFloat`: error analysis of nalgebra's Householder QR (each step a near-orthogonal map with explicit constants), of the flips and signs of rq, of the determinants in pmat2cam_center and of the conversion to a quaternion; every intermediate result is bounded, so finiteness is a conclusion"
  },
  {
   "property": "C81",
   "status": "proved",
   "theorems": [
    "CamGeom.c81_f64_world_to_pixel"
   ],
   "note": "`f64` as modelled by `RustFloat`: C80 gives a camera near an exact camera that reproduces the rows of the matrix; the homogeneous images then differ by a multiple of row length times distance, and C47, C48, C77 bound the computed projection"
  },
  {
   "property": "C82",
   "status": "proved",
   "theorems": [
    "CamGeom.c82_converges",
    "CamGeom.c82_accuracy",
    "CamGeom.c82_accuracy_angle",
    "CamGeom.c82_common_point",
    "CamGeom.c82_triangulation",
    "CamGeom.c82_parallel",
    "CamGeom.c82_narrow",
    "CamGeom.c82_counterexample"
   ],
   "note": "exact arithmetic (R = real numbers); nalgebra's SVD as modelled in Model/Svd3: implicit QR steps keep an orthonormal basis tridiagonal and shrink the off-diagonal by 8/27 per step (Wilkinson shift); trace and norm of the normal equations exclude two small singular values; QR of the sorted columns is nearly diagonal; perturbation of the pseudo-inverse"
  },
  {
   "property": "C83",
   "status": "proved",
   "theorems": [
    "CamGeom.c83_finite",
    "CamGeom.c83_accuracy",
    "CamGeom.c83_f64_finite",
    "CamGeom.c83_f32_finite",
    "CamGeom.c83_f64_accuracy",
    "CamGeom.c83_f32_accuracy"
   ],
   "note": "any two types obeying the rounding and range laws; then `f64` and `f32` as modelled by `RustFloat`; nalgebra's SVD as modelled in Model/Svd3: floating-point error analysis of tridiagonalization, Wilkinson shift and Givens sweeps; the product off0^2 off1^4 of the computed off-diagonal shrinks by 3/10 per sweep down to the threshold; the accumulated rotations stay near orthogonal and decompose a nearby Gram matrix; QR of the sorted columns, the last of which may vanish; then C69 with all intermediate results bounded"
  },
  {
   "property": "C84",
   "status": "proved",
   "theorems": [
    "CamGeom.c84_least_squares",
    "CamGeom.c84_near_point",
    "CamGeom.c84_f64_near_point",
    "CamGeom.c84_f32_near_point"
   ],
   "note": "exact arithmetic (R = real numbers); then `f64` and `f32` as modelled by `RustFloat`; nalgebra's SVD: comparison of least-squares costs with the lower bound 1-|cos| of the quadratic form; then C82, C83"
  },
  {
   "property": "C85",
   "status": "proved",
   "theorems": [
    "CamGeom.c85_f64_measured",
    "CamGeom.c85_f64_triangulation"
   ],
   "note": "`f64` as modelled by `RustFloat`; nalgebra's SVD as modelled in Model/Svd3: error bounds of direction and centre of the ray of a pixel (C48, C47) with finiteness from C77; the ray passes near the point and has nearly the right direction; then C84; for computed pixels C49 gives sigma = 1.1e-10"
  },
  {
   "property": "C86",
   "status": "proved",
   "theorems": [
    "CamGeom.c86_perspective_text",
    "CamGeom.c86_perspective_alternate",
    "CamGeom.c86_orthographic_alternate",
    "CamGeom.c86_perspective",
    "CamGeom.c86_orthographic",
    "CamGeom.c86_identifies",
    "CamGeom.c86_error"
   ],
   "note": "any scalar, any number formatting that is injective and free of separators; builders of core::fmt modelled: unique parsing: a common continuation determines value and rest, field by field, also through the indentation of the alternate format"
  },
  {
   "property": "C87",
   "status": "proved",
   "theorems": [
    "CamGeom.c87_f64_camera_matrix",
    "CamGeom.c87_f64_linearize"
   ],
   "note": "`f64` as modelled by `RustFloat`: the error calculus of C72 and C73, with magnitudes of the rotation matrix that use the norm of the quaternion and separate magnitudes for the rows and columns of K [R | t]; the Jacobian is invariant under scaling of the matrix, so the computed divisor needs no accuracy; finiteness by the magnitude calculus of C77"
  },
  {
   "property": "C88",
   "status": "proved",
   "theorems": [
    "CamGeom.c88_f64_world_to_pixel",
    "CamGeom.c88_f64_roundtrip",
    "CamGeom.c88_f64_measured",
    "CamGeom.c88_f64_triangulation"
   ],
   "note": "`f64` as modelled by `RustFloat`; nalgebra's SVD as modelled in Model/Svd3: the ray of a pixel starts near the point's offset (C48) and runs along the optical axis up to rounding (C47), finiteness from C77; then C84 as in C85 for a list of cameras of both kinds; the round trip is C67 with C77"
  },
  {
   "property": "C89",
   "status": "proved",
   "theorems": [
    "CamGeom.c89_dropped",
    "CamGeom.c89_f64_dropped",
    "CamGeom.c89_f64_parallel",
    "CamGeom.c89_f64_narrow"
   ],
   "note": "any two types obeying the rounding and range laws; then `f64` as modelled by `RustFloat` (f32 noise exceeds the cutoff, there only C83's finiteness holds); nalgebra's SVD as modelled in Model/Svd3: the least singular value is below the length of the image of any unit vector up to the error of the decomposition, so it is cut off; its singular vector is then near beta; error calculus of the two remaining terms of the pseudo-inverse"
  },
  {
   "property": "C90",
   "status": "proved",
   "theorems": [
    "CamGeom.c90_accepted_iff",
    "CamGeom.c90_f64",
    "CamGeom.c90_f32",
    "CamGeom.c90_projection"
   ],
   "note": "`f64`, `f32` and every binary format as modelled by `RustFloat`, with EPSILON as the tolerance; approx's relative_ne modelled; the bound on the pixel in exact arithmetic: next to one, differences are exact and multiples of EPSILON, so the rounded comparison decides the exact one; far away both tolerances are too small; NaN and infinities by cases; quotient estimate for the pixel"
  },
  {
   "property": "C91",
   "status": "proved",
   "theorems": [
    "CamGeom.c91_shared_origin",
    "CamGeom.c91_shared_direction",
    "CamGeom.c91_f64_shared_origin",
    "CamGeom.c91_f64_shared_direction",
    "CamGeom.c91_f32_shared_origin",
    "CamGeom.c91_f32_shared_direction",
    "CamGeom.c91_f64_perspective",
    "CamGeom.c91_f64_computed",
    "CamGeom.c91_f64_orthographic",
    "CamGeom.c91_f32_perspective",
    "CamGeom.c91_f32_computed",
    "CamGeom.c91_f32_orthographic"
   ],
   "note": "`f64` and `f32` as modelled by `RustFloat`: error of the norm (8 u) through quotient, product and sum, finiteness from the range laws; the camera statements add the distance of the computed ray from the point (C85, C88)"
  },
  {
   "property": "C92",
   "status": "proved",
   "theorems": [
    "CamGeom.c92_f64",
    "CamGeom.c92_f32"
   ],
   "note": "`f64` and `f32` as modelled by `RustFloat`; nalgebra's SVD as modelled in Model/Svd3: the ray of a pixel stays in range (C77) and its direction keeps a length of at least 0.98 (C47); then C83"
  },
  {
   "property": "C93",
   "status": "proved",
   "theorems": [
    "CamGeom.c93_f64_matrix_trip"
   ],
   "note": "`f64` as modelled by `RustFloat`; nalgebra's QR and Shepperd's method as modelled: the matrix of as_camera_matrix is, up to one common factor, within 1e-13 per row of K[R|t] (C87's tools); hence it is in the class of C80 with kappa = 1/1000, with a null point near the centre (Cramer); C81 bounds the new camera's pixels, C47/C49 the old one's"
  },
  {
   "property": "C94",
   "status": "proved",
   "theorems": [
    "CamGeom.c94_reversed_rays",
    "CamGeom.c94_opposite_matrices",
    "CamGeom.c94_opposite_points",
    "CamGeom.c94_opposite_pixels",
    "CamGeom.c94_not_rotated",
    "CamGeom.c94_unit_camera"
   ],
   "note": "`f32` and `f64` as modelled by `RustFloat`, every bit pattern: rounding commutes with negation, so sign changes cancel operation by operation; the relation `Same` (equal up to the sign of zero) is preserved by addition, multiplication and, unless a zero is divided by, division; products with 0 and 1 and sums with 0 are exact"
  },
  {
   "property": "C95",
   "status": "proved",
   "theorems": [
    "CamGeom.c95_least_squares",
    "CamGeom.c95_f64_same_lines",
    "CamGeom.c95_f64_stability",
    "CamGeom.c95_f32_same_lines",
    "CamGeom.c95_f32_stability"
   ],
   "note": "`f64` and `f32` as modelled by `RustFloat`; nalgebra's SVD as modelled in Model/Svd3: the sum of squared distances depends only on the set of lines, so both lists have the same least-squares point, and the angles agree; C83 for each list; for disturbed rays C60 bounds the distance of the two least-squares points"
  },
  {
   "property": "C96",
   "status": "proved",
   "theorems": [
    "CamGeom.c96_f64_lookdir",
    "CamGeom.c96_f64_axes",
    "CamGeom.c96_f64_distances",
    "CamGeom.c96_f64_world_trip",
    "CamGeom.c96_f64_camera_trip",
    "CamGeom.c96_f32_lookdir",
    "CamGeom.c96_f32_axes",
    "CamGeom.c96_f32_distances",
    "CamGeom.c96_f32_world_trip",
    "CamGeom.c96_f32_camera_trip",
    "CamGeom.c96_far_away"
   ],
   "note": "bit-level `f64`/`f32` (`Flt`) `from_rotation_and_camcenter`, `world_to_camera`, `camera_to_world`, `right`, `up`, `forward`: C47's bounds with the concrete constants, finiteness from C77, `abs_len_rotate` (a nearly unit quaternion nearly keeps lengths) and `exact_trip`; the axes by `lookdir_near` (difference of the moved point and the centre, then `normalize`); NaN far away by `Format.rnd_absorb`: numbers above `2^(p+1)` are multiples of four, so adding one rounds back"
  },
  {
   "property": "C97",
   "status": "proved",
   "theorems": [
    "CamGeom.c97_perspective_params_map",
    "CamGeom.c97_perspective_params_seq",
    "CamGeom.c97_orthographic_params",
    "CamGeom.c97_orthographic",
    "CamGeom.c97_camera",
    "CamGeom.c97_bundle_types",
    "CamGeom.c97_ray_bundle",
    "CamGeom.c97_ray_bundle_dyn",
    "CamGeom.c97_unknown_keys",
    "CamGeom.c97_order",
    "CamGeom.c97_errors",
    "CamGeom.c97_missing_parameter",
    "CamGeom.c97_numbers",
    "CamGeom.c97_bad_number",
    "CamGeom.c97_written_data"
   ],
   "note": "any scalar type and token type; derived `Deserialize` as modelled by `visitEntries`/`requiredField`/`visitElements`/`structFields`: `HasField` (exactly one entry with that key) is stated on the list itself and shown equivalent to the model's lookup; each type by destructuring its field list; unknown keys by induction over the entries; errors by `visitEntries_append`: entries without a fault are passed over, so the first one with a fault decides (`FirstFault`)"
  },
  {
   "property": "C98",
   "status": "proved",
   "theorems": [
    "CamGeom.c98_rendering",
    "CamGeom.c98_single_point",
    "CamGeom.c98_infinite"
   ],
   "note": "render_wireframe and SvgWriter (Model/RenderCube.lean) instantiated with the IEEE 754 f64 of Model/Float.lean; INFINITY, min and max are any functions with the documented behaviour (Spec.IsF64Order); the pixel coordinates are those the f64 camera computes, whatever camera it is. Number formatting is not modelled.: The extremes found by the folds are finite coordinates (fold_min_finite, fold_max_finite); each quotient is within 5u of the exact scale or +inf for a flat axis (scale_near); the smaller one is chosen (scale_choice); rounding of the affine map (coord_near). Hypothesis WideOrFlat: an axis all of whose coordinates are zeros must not mix +0 and -0, because f64::min and f64::max may then return zeros whose difference is -0."
  },
  {
   "property": "C99",
   "status": "proved",
   "theorems": [
    "CamGeom.c99_f32_measured",
    "CamGeom.c99_f32_triangulation"
   ],
   "note": "`f32` as modelled by `RustFloat`; nalgebra's SVD as modelled in Model/Svd3, run in f64: as C85 with the constants of f32: the ray of a pixel passes near the point and has nearly the right direction, then the f32 statement of C84; finiteness from C77 with the smaller exponent range"
  },
  {
   "property": "C100",
   "status": "proved",
   "theorems": [
    "CamGeom.c100_f32_camera_matrix",
    "CamGeom.c100_f32_linearize"
   ],
   "note": "`f32` as modelled by `RustFloat`: as C87, with magnitudes of the rotation matrix that use the norm of the quaternion; finiteness within the exponent range of f32"
  },
  {
   "property": "C101",
   "status": "proved",
   "theorems": [
    "CamGeom.c101_f32_world_to_pixel",
    "CamGeom.c101_f32_roundtrip",
    "CamGeom.c101_f32_measured",
    "CamGeom.c101_f32_triangulation"
   ],
   "note": "`f32` as modelled by `RustFloat`; nalgebra's SVD as modelled in Model/Svd3, run in f64: as C88 with the constants of f32 and the sharper magnitudes of rotations in Lemmas/RoundingTight; the round trip compares the computed point with the exact ray and applies the bound for world_to_pixel"
  },
  {
   "property": "C102",
   "status": "proved",
   "theorems": [
    "CamGeom.c102_f64_world_to_pixel",
    "CamGeom.c102_f64_roundtrip",
    "CamGeom.c102_f32_world_to_pixel",
    "CamGeom.c102_f32_roundtrip"
   ],
   "note": "bit-level `f64`/`f32` (`Flt`); the pose, the intrinsics and the round trip through `point_on_ray`: entrywise errors of the frame changes with the sharp magnitudes of Lemmas/RoundingTight, then the error of the division by the depth; the round trip reuses the norm bound for a nearly unit quaternion and c67_perspective_of_error; finiteness from C77"
  },
  {
   "property": "C103",
   "status": "proved",
   "theorems": [
    "CamGeom.c103_shows_iff",
    "CamGeom.c103_constraint",
    "CamGeom.c103_triangulated",
    "CamGeom.c103_epipolar_line",
    "CamGeom.c103_parallax"
   ],
   "note": "real scalars; perspective cameras with unit quaternions, SVD by its contract: C15 and the pinhole formula give the set of points of a pixel; coplanar vectors by the identity of Grassmann; images of three points are collinear iff their triple product vanishes, which rotations preserve; different centres: a direction transversal to three given vectors from a nonzero polynomial"
  },
  {
   "property": "C104",
   "status": "proved",
   "theorems": [
    "CamGeom.c104_f64_distance",
    "CamGeom.c104_f64_measured",
    "CamGeom.c104_f64_triangulation"
   ],
   "note": "f64 with IEEE 754 arithmetic (F64 lib) and the modelled SVD; cameras given by the arguments of from_view: C76 bounds the computed quaternion against a unit quaternion of the exact view; the directions in the camera frame are those of C85; the rays pass near the point and in the right direction, and C84 gives the intersection. For computed pixels C85 is used with a rotation of unit norm up to 1.6e-13"
  },
  {
   "property": "C105",
   "status": "proved",
   "theorems": [
    "CamGeom.c105_f64_axes",
    "CamGeom.c105_f32_axes"
   ],
   "note": "`f64` and `f32` as modelled by `RustFloat` with an accurate `Libm`: C76 bounds the computed quaternion against a unit quaternion of the exact view; the error of an axis in terms of the defect of the quaternion is that of C96; C07 and C08 identify the exact axes"
  },
  {
   "property": "C106",
   "status": "proved",
   "theorems": [
    "CamGeom.c106_f32_distance",
    "CamGeom.c106_f32_measured"
   ],
   "note": "`f32` as modelled by `RustFloat` with an accurate `Libm`, the SVD in `f64`: C76 bounds the computed quaternion against a unit quaternion of the exact view, in the length of quaternions; the directions in the camera frame are those of C99; the rays pass near the point and in the right direction, and C84 gives the intersection"
  },
  {
   "property": "C107",
   "status": "proved",
   "theorems": [
    "CamGeom.c107_f64_near",
    "CamGeom.c107_f64_reprojection",
    "CamGeom.c107_f32_near",
    "CamGeom.c107_f32_reprojection",
    "CamGeom.c107_f64_orthographic_near",
    "CamGeom.c107_f64_mixed_reprojection",
    "CamGeom.c107_f32_orthographic_near",
    "CamGeom.c107_f32_mixed_reprojection",
    "CamGeom.c107_f64_view_near",
    "CamGeom.c107_f64_view_reprojection",
    "CamGeom.c107_f32_view_near",
    "CamGeom.c107_f32_view_reprojection"
   ],
   "note": "`f64` and `f32` as modelled by `RustFloat`, the SVD in `f64`: C85 and C99 give a point near the true one; slopes of nearby points differ by at most 10.6 times their distance over the depth; the rounding error of the projection is that of C85 and C99 applied to the point found; for cameras placed by `from_view` the same with C104, C106 and the pixel bounds of C79; with orthographic cameras C88 and C101, whose images of nearby points differ by their distance times the scale"
  },
  {
   "property": "C108",
   "status": "proved",
   "theorems": [
    "CamGeom.c108_shows_iff",
    "CamGeom.c108_constraint",
    "CamGeom.c108_determined",
    "CamGeom.c108_triangulated",
    "CamGeom.c108_epipolar_line",
    "CamGeom.c108_parallax",
    "CamGeom.c108_mixed"
   ],
   "note": "real scalars; cameras with unit quaternions, SVD by its contract: C14 and C15 give the line of a pixel; coplanarity by explicit coefficients from the cross product; C32 for the intersection; images of lines by linearity"
  },
  {
   "property": "C109",
   "status": "proved",
   "theorems": [
    "CamGeom.c109_plane",
    "CamGeom.c109_rotation",
    "CamGeom.c109_rotation_only"
   ],
   "note": "real scalars; perspective cameras with unit quaternions: pixels in homogeneous coordinates; on the plane the change of centre is the linear map 1 + b n\u1d40 / \u03b4, whose determinant is the ratio of the distances of the centres from the plane; converse from C103"
  },
  {
   "property": "C110",
   "status": "proved",
   "theorems": [
    "CamGeom.c110_quadratic",
    "CamGeom.c110_converges",
    "CamGeom.c110_normal_matrix",
    "CamGeom.c110_determined",
    "CamGeom.c110_gradient",
    "CamGeom.c110_gauss_newton",
    "CamGeom.c110_one_step"
   ],
   "note": "real scalars; perspective cameras with unit quaternions: kernel of one Jacobian from C28, derivative from C27, exact remainder from C55 (the Jacobian at y maps y - x to the pixel difference scaled by the depth ratio), Cauchy-Schwarz; lines of sight from C103; local quadratic convergence from continuity of the Jacobians and of the inverse normal matrix"
  },
  {
   "property": "C111",
   "status": "proved",
   "theorems": [
    "CamGeom.c111_combination",
    "CamGeom.c111_segment",
    "CamGeom.c111_segment_behind",
    "CamGeom.c111_visible_convex",
    "CamGeom.c111_image_convex",
    "CamGeom.c111_cross_ratio",
    "CamGeom.c111_orthographic",
    "CamGeom.c111_orthographic_convex"
   ],
   "note": "real scalars; unit quaternions: the image of a weighted mean is a weighted mean of the images with weights multiplied by the depths; the inverse change of weights gives the other inclusion"
  },
  {
   "property": "C112",
   "status": "proved",
   "theorems": [
    "CamGeom.c112_ray",
    "CamGeom.c112_angle",
    "CamGeom.c112_every_direction",
    "CamGeom.c112_orthographic_ray",
    "CamGeom.c112_orthographic_every_point"
   ],
   "note": "real scalars; unit quaternions: the direction expressed in the orthonormal axes (C09); coefficients of a direction determine the pixel"
  },
  {
   "property": "C113",
   "status": "proved",
   "theorems": [
    "CamGeom.c113_disparity",
    "CamGeom.c113_depth",
    "CamGeom.c113_triangulated",
    "CamGeom.c113_sensitivity"
   ],
   "note": "real scalars; unit quaternions; SVD contract for the triangulation: camera coordinates of the second camera are those of the first minus (b, 0, 0); C103, C32"
  },
  {
   "property": "C114",
   "status": "proved",
   "theorems": [
    "CamGeom.c114_determined",
    "CamGeom.c114_consistent"
   ],
   "note": "real scalars; unit quaternions; SVD contract for the second part: the points shown in a pixel are the line of its ray (C103, C108) up to one point; the exceptions are finitely many; C32"
  },
  {
   "property": "C115",
   "status": "proved",
   "theorems": [
    "CamGeom.c115_gap",
    "CamGeom.c115_upper",
    "CamGeom.c115_lower",
    "CamGeom.c115_orthographic",
    "CamGeom.c115_triangulated"
   ],
   "note": "real scalars; unit quaternions; SVD contract for the last part: coordinates along the axes of the camera (C52, C112); Cauchy-Schwarz for the lower bound; C31"
  },
  {
   "property": "C116",
   "status": "proved",
   "theorems": [
    "CamGeom.c116_area",
    "CamGeom.c116_orientation",
    "CamGeom.c116_degenerate",
    "CamGeom.c116_orthographic",
    "CamGeom.c116_sides"
   ],
   "note": "real scalars; unit quaternions: triple products are invariant under the rotation of the pose (determinant 1)"
  },
  {
   "property": "C117",
   "status": "proved",
   "theorems": [
    "CamGeom.c117_formula",
    "CamGeom.c117_bound",
    "CamGeom.c117_limit"
   ],
   "note": "real scalars; unit quaternions: camera coordinates of the camera moved back are those of the orthographic camera plus (0, 0, D)"
  },
  {
   "property": "C118",
   "status": "proved",
   "theorems": [
    "CamGeom.c118_depth",
    "CamGeom.c118_flow",
    "CamGeom.c118_contact",
    "CamGeom.c118_parallel",
    "CamGeom.c118_orthographic",
    "CamGeom.c118_moving_camera"
   ],
   "note": "real scalars; built-in cameras with unit quaternions: closed form of the depth and the pixel along the motion (pinhole formula of C11 in rotated coordinates)"
  },
  {
   "property": "C119",
   "status": "proved",
   "theorems": [
    "CamGeom.c119_edit",
    "CamGeom.c119_edit_rays",
    "CamGeom.c119_edit_orthographic",
    "CamGeom.c119_edit_orthographic_rays",
    "CamGeom.c119_roll",
    "CamGeom.c119_roll_orthographic"
   ],
   "note": "real scalars; built-in cameras; the statements about rays need no assumption on the pose: closed forms of projection and rays; a rotation matrix that fixes the third axis is a planar rotation"
  },
  {
   "property": "C120",
   "status": "proved",
   "theorems": [
    "CamGeom.c120_in_front",
    "CamGeom.c120_image",
    "CamGeom.c120_orthographic"
   ],
   "note": "real scalars; built-in cameras with unit quaternions; nonnegative radius for the perspective case: points of a pixel from C103, point of the ray closest to the centre of the ball"
  }
 ]
}

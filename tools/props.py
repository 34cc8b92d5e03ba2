import json
P=[]
def p(title, statement, quantifier, why, anchors):
    P.append(dict(id="C%02d"%(len(P)+1), title=title, statement=statement, quantifier=quantifier, why_tests_cant=why, anchors=anchors))
X="src/extrinsics.rs: "; C="src/camera.rs: "; IP="src/intrinsics_perspective.rs: "; IO="src/intrinsics_orthographic.rs: "
RB="src/ray_bundle_types.rs: "; L="src/lib.rs: "; RI="src/ray_intersection.rs: "; LI="src/linearize.rs: "; TU="src/intrinsic_test_utils.rs: "; EX="examples/render-cube.rs: "
p("Batch conversions are row-wise",
  "Converting a batch of N points, pixels or rays gives exactly N results, and result i is exactly (bit for bit) what converting row i alone would give: neither the other rows nor N influence it.",
  "every scalar type (no arithmetic law is assumed, so IEEE floats included), every N including 0, every batch content, every row index, every intrinsics/extrinsics value, for world_to_camera, camera_to_world, camera_to_pixel, pixel_to_camera (both models), world_to_pixel, pixel_to_world, point_on_ray, point_on_ray_at_distance",
  "tests fix a handful of batch sizes; a loop that drops, repeats or cross-contaminates a row at some N or index is only excluded by induction over the loop",
  [X+"camera_to_world, world_to_camera", IP+"pixel_to_camera, camera_to_pixel", IO+"pixel_to_camera, camera_to_pixel", C+"world_to_pixel, pixel_to_world", RB+"point_on_ray, point_on_ray_at_distance, to_pose"])
p("World and camera frames convert back and forth without loss",
  "camera_to_world undoes world_to_camera and world_to_camera undoes camera_to_world.",
  "every extrinsic parameters built from a unit rotation and any camera center, every batch of points (exact arithmetic)",
  "infinite family of rotations, centers and points; tests sample one pose and four points",
  [X+"camera_to_world, world_to_camera, from_rotation_and_camcenter"])
p("Frame conversion is a rigid, orientation-preserving motion",
  "The distance between any two points is the same before and after world_to_camera (and camera_to_world), and so is the signed volume spanned by any four points, so no mirroring or scaling is ever introduced.",
  "every unit rotation, every camera center, all points (exact arithmetic)",
  "isometry is a universally quantified equation between pairs/quadruples of points",
  [X+"world_to_camera, camera_to_world"])
p("camcenter() is the optical centre",
  "The world point returned by camcenter() is converted by world_to_camera to (0,0,0), (0,0,0) is converted by camera_to_world to camcenter(), and no other world point maps to (0,0,0). camcenter() is exactly the centre handed to the constructor.",
  "every unit rotation and camera center (exact arithmetic)",
  "quantifies over all poses and, for uniqueness, over all points",
  [X+"camcenter, from_rotation_and_camcenter, from_view"])
p("All pose accessors describe one and the same transformation",
  "pose(), matrix(), rotation() with translation(), and world_to_camera agree: for every world point x, world_to_camera(x) = pose()*x = matrix()*(x,1) = rotation()*x + translation(), and translation() = -rotation()*camcenter(). rotation() is orthogonal with determinant +1.",
  "every unit rotation, camera center and point (exact arithmetic)",
  "the six cached representations could disagree on inputs no test visits",
  [X+"pose, matrix, rotation, translation, ExtrinsicsCache"])
p("pose() and from_pose are inverse",
  "from_pose(e.pose()) has the same rotation, camera centre, matrix and behaviour as e, and from_pose(p).pose() equals p.",
  "every isometry p with a unit rotation, every extrinsics e (exact arithmetic)",
  "round trip over an uncountable domain; the repository tests one pose",
  [X+"from_pose, pose"])
p("from_view points the camera at lookat",
  "With from_view(camcenter, lookat, up), the camera centre is camcenter, forward() is the normalized lookat-camcenter, the lookat point has camera coordinates (0,0,|lookat-camcenter|), and with any perspective (orthographic) intrinsics lookat projects exactly onto the principal point (image centre) (cx,cy).",
  "all camcenter, lookat, up with lookat != camcenter and up not parallel to the view direction; all intrinsics (exact arithmetic, exact pi)",
  "the rotation goes through a four-branch matrix-to-quaternion conversion; the branch taken depends on the pose",
  [X+"from_view, forward", C+"world_to_pixel"])
p("from_view puts the requested up direction up",
  "With from_view, up() is the unit vector along the part of the supplied up vector that is perpendicular to the view direction, and right() is the unit vector along (lookat-camcenter) x up; with positive fy, a point displaced from lookat along the supplied up vector (staying in front of the camera) projects strictly above (smaller v) the principal point and to the same u as without skew.",
  "all camcenter, lookat, up with lookat != camcenter and up not parallel to the view direction (exact arithmetic)",
  "sign conventions must hold in every octant, not only in the tested one",
  [X+"from_view, up, right"])
p("right/up/forward are an orthonormal right-handed frame and are the camera axes",
  "right(), up() and forward() are unit vectors, mutually orthogonal, with right x forward = up (so right, -up, forward is right-handed); and they are the world directions of camera +X, -Y and +Z.",
  "every unit rotation and camera center (exact arithmetic)",
  "quantified over all poses",
  [X+"forward, up, right, lookdir"])
p("Perspective pixel round trip",
  "Turning pixels into camera rays, taking a point on each ray (point_on_ray, or point_on_ray_at_distance for any nonzero distance) and projecting it gives back the same pixels.",
  "all fx,fy != 0, all skew,cx,cy, all pixel batches, all nonzero distances (exact arithmetic)",
  "tests use one camera and an integer pixel grid",
  [IP+"pixel_to_camera, camera_to_pixel", RB+"SharedOriginRayBundle::point_on_ray, point_on_ray_at_distance"])
p("Perspective projection is the pinhole formula and only depends on the viewing line",
  "camera_to_pixel maps (x,y,z) with z != 0 to (fx*x/z + skew*y/z + cx, fy*y/z + cy); scaling the point by any nonzero factor leaves the pixel unchanged; and two points at nonzero depth project to the same pixel if and only if they lie on one line through the camera centre.",
  "all parameters (fx,fy != 0 for the 'only if'), all points with z != 0 (exact arithmetic)",
  "a formula and an equivalence over all points",
  [IP+"camera_to_pixel, From<PerspectiveParams>"])
p("Orthographic pixel round trip and depth independence",
  "Turning pixels into orthographic camera rays, taking any point on the ray (any distance) and projecting it gives back the same pixels; camera_to_pixel maps (x,y,z) to (sx*x+cx, sy*y+cy) and ignores z; two points project to the same pixel iff they differ only in z.",
  "all sx,sy != 0, all cx,cy, all pixels, all distances, all points (exact arithmetic)",
  "quantified over all parameters, pixels and depths",
  [IO+"pixel_to_camera, camera_to_pixel"])
p("Camera-level round trip for any intrinsics model",
  "If an IntrinsicParameters implementation (built in or third party) gives back the pixels after pixel_to_camera, point_on_ray, camera_to_pixel, then a Camera made from it with any extrinsics gives back the pixels after pixel_to_world, point_on_ray, world_to_pixel; the same with point_on_ray_at_distance, if no ray direction is zero.",
  "every implementation of the trait using either bundle type, every pose, every pixel batch, every distance (exact arithmetic)",
  "quantifies over implementations of a trait, including ones not written yet",
  [C+"Camera::world_to_pixel, pixel_to_world, roundtrip_camera", L+"IntrinsicParameters, Bundle"])
p("World rays start at the camera (perspective) or share its forward direction (orthographic)",
  "Every ray from pixel_to_world of a perspective camera has its centre at camcenter() and a nonzero direction with positive component along forward(); every ray from an orthographic camera has direction forward().",
  "all cameras (with nonzero focal lengths, if perspective), all pixels (exact arithmetic)",
  "quantified over all cameras and pixels",
  [C+"pixel_to_world", RB+"to_pose"])
p("A projected point lies on the ray of its own pixel",
  "If a world point x projects to pixel p, then the ray returned by pixel_to_world(p) contains x; for a perspective camera x = centre + depth*direction with depth the camera-frame z of x.",
  "all cameras with nonzero focal lengths/scales, all world points with nonzero depth (any depth for orthographic) (exact arithmetic)",
  "the converse of the pixel round trip, over all points",
  [C+"world_to_pixel, pixel_to_world"])
p("point_on_ray_at_distance is at that distance, on the ray",
  "The returned point is on the ray's line, at Euclidean distance exactly |distance| from the ray's origin, and on the direction's side of the origin when distance > 0.",
  "both bundle types, any nonzero direction, any origin, any distance (exact arithmetic)",
  "quantified over all directions and distances",
  [RB+"point_on_ray_at_distance"])
p("Frame change commutes with taking points on rays",
  "Transforming a ray bundle to the world frame and then taking a point on each ray (point_on_ray or point_on_ray_at_distance) gives the same points as taking them in the camera frame and transforming the points.",
  "both bundle types, all poses, all bundles, all distances (exact arithmetic)",
  "commutation law over all poses and bundles",
  [X+"ray_camera_to_world", RB+"to_pose"])
p("Ray bundle views agree",
  "point_on_ray is centers() + directions() row by row (addition order aside), to_single_ray of a one-ray bundle is the ray with centers() row 0 and directions() row 0, a shared-origin bundle repeats its single origin in every row of centers() and a shared-direction bundle repeats its direction.",
  "every scalar type, every bundle of either type, every number of rays",
  "must hold for all sizes and contents",
  [RB+"directions, centers, to_single_ray, point_on_ray", L+"RayBundle"])
p("from_normalized_3x4_matrix accepts exactly the normalized intrinsic matrices",
  "The result is Ok if and only if each of the six structurally zero entries is within the scalar's default tolerance of 0 and entry (2,2) is within it of 1; otherwise it is Err(InvalidInput). On success fx, fy, skew, cx, cy are the matrix entries (0,0), (1,1), (0,1), (0,2), (1,2).",
  "every 3x4 matrix and every tolerance eps with 0 <= eps < 1 (exact arithmetic)",
  "acceptance region over a 12-dimensional space",
  [IP+"from_normalized_3x4_matrix"])
p("An accepted intrinsic matrix and the resulting model project alike",
  "If the matrix is exactly normalized, camera_to_pixel of the resulting intrinsics equals multiplying by the matrix and dividing by the third component; and feeding an intrinsics' own 3x4 matrix back returns equal intrinsics.",
  "every matrix in normal form, every camera point with nonzero depth (exact arithmetic)",
  "functional equality over all points",
  [IP+"from_normalized_3x4_matrix, camera_to_pixel"])
p("as_camera_matrix projects like the camera",
  "For a perspective camera whose camera-frame coordinates of the world origin have z != 0, multiplying (x,1) by as_camera_matrix() and dividing by the third component equals world_to_pixel(x) for every x with nonzero depth; entry (2,3) is 1; the third component is depth(x)/depth(origin).",
  "all intrinsics and poses with depth(origin) != 0, all points with nonzero depth (exact arithmetic)",
  "functional equality over all points and cameras; the sign-flip branch must not matter",
  [C+"as_camera_matrix"])
p("as_camera_matrix is unusable exactly when the world origin is in the principal plane",
  "If the world origin has camera-frame z = 0 (for example a camera located at the origin), as_camera_matrix divides by zero: with IEEE semantics its (2,3) entry is NaN, no matter what the other parameters are. (Known defect: a finite projection matrix exists for such cameras.)",
  "all finite intrinsics and rotations with camera centre 0 (IEEE special values, arbitrary rounding)",
  "tests never put a camera at the origin",
  [C+"as_camera_matrix"])
p("from_perspective_matrix reproduces the projection",
  "For a 3x4 matrix P with invertible left 3x3 block, the returned camera projects every world point x exactly as P does: world_to_pixel(x) = (P(x,1))[0..2]/(P(x,1))[2] whenever P(x,1)[2] != 0; its camera centre is the null vector of P.",
  "all P with invertible left block, all x, every QR routine that returns a valid QR factorization (exact arithmetic)",
  "sign normalization has 8 x 2 cases and the domain is 12-dimensional",
  [C+"from_perspective_matrix, rq, rq_decomposition, pmat2cam_center"])
p("from_perspective_matrix never fails and returns a proper, positive camera",
  "It never returns Err, for any scalar type and matrix. When the left block is invertible, the returned fx and fy are > 0, the rotation is a proper rotation (orthogonal, determinant +1, unit quaternion).",
  "every 3x4 matrix (first part: every scalar type); invertible left block for the second part",
  "must hold in every branch of the sign handling",
  [C+"from_perspective_matrix, rq_decomposition"])
p("from_perspective_matrix ignores the scale and sign of the matrix",
  "from_perspective_matrix(s*P) has the same fx, fy, skew, cx, cy, camera centre and rotation matrix as from_perspective_matrix(P).",
  "all s != 0 (negative included), all P with invertible left block (exact arithmetic)",
  "projective invariance over all scales",
  [C+"from_perspective_matrix"])
p("Camera -> matrix -> camera round trip",
  "from_perspective_matrix(c.as_camera_matrix()) is Ok and has the same intrinsic parameters, camera centre and rotation matrix as c; if fx or fy of c is negative, it still projects all points like c.",
  "all perspective cameras with fx,fy != 0 (equality of parameters: fx,fy > 0) and depth(world origin) != 0 (exact arithmetic)",
  "uniqueness of the RQ factorization over all cameras; the repository tests one camera",
  [C+"as_camera_matrix, from_perspective_matrix"])
p("linearize_at is the derivative of world_to_pixel",
  "The 2x3 matrix returned by JacobianPerspectiveCache::new(cam).linearize_at(p) is the Frechet derivative of the map x -> world_to_pixel(x) at p.",
  "all perspective cameras with depth(world origin) != 0, all p with nonzero depth (exact arithmetic)",
  "a derivative is a limit statement; tests compare one finite difference",
  [LI+"JacobianPerspectiveCache::new, linearize_at"])
p("The Jacobian is blind exactly along the viewing ray",
  "linearize_at(p) sends an offset o to (0,0) if and only if o is a multiple of p - camcenter.",
  "all perspective cameras with fx,fy != 0, depth(world origin) != 0, all p with nonzero depth, all offsets (exact arithmetic)",
  "rank statement over all cameras and points",
  [LI+"linearize_at"])
p("The Jacobian cache is unusable when the world origin is in the principal plane",
  "For a camera located at the world origin, JacobianPerspectiveCache::new divides by zero and, with IEEE semantics, linearize_at returns NaN in every entry for every finite p, although the derivative exists. (Known defect.)",
  "all finite intrinsics and rotations with camera centre 0, all finite p (IEEE special values, arbitrary rounding)",
  "tests never put a camera at the origin",
  [LI+"JacobianPerspectiveCache::new, linearize_at"])
p("best_intersection_of_rays error protocol",
  "With fewer than two rays it returns Err(MinimumTwoRaysNeeded); with two or more it returns Err(SvdFailed) if the SVD does not converge and otherwise Ok with one point; it never panics (the unwraps are safe) provided scalars convert to f64.",
  "every scalar type, every list of rays, every SVD routine",
  "all list lengths and all SVD outcomes",
  [RI+"best_intersection_of_rays, my_pinv"])
p("best_intersection_of_rays is the least-squares point",
  "The returned point minimizes the sum of squared distances to the lines through the rays, uniquely, whenever some two of the rays have directions with |cos angle| < 1 - 1e-7.",
  "all lists of rays with nonzero directions, all competing points, every SVD routine returning a valid SVD (exact arithmetic)",
  "optimality against all of R^3",
  [RI+"best_intersection_of_rays"])
p("Rays through a common point intersect there",
  "If all rays' lines pass through one point q and two of them have |cos angle| < 1 - 1e-7, the result is exactly q.",
  "all q, all n >= 2, all directions (exact arithmetic)",
  "all configurations and sizes",
  [RI+"best_intersection_of_rays"])
p("best_intersection_of_rays does not depend on ray order",
  "Permuting the list of rays does not change the result (including error results).",
  "all lists, all permutations, every deterministic SVD routine, parallel rays included (exact arithmetic)",
  "n! orders",
  [RI+"best_intersection_of_rays"])
p("best_intersection_of_rays depends only on the lines",
  "Rescaling a direction by any nonzero factor (also negative) or sliding a ray's origin along its own direction does not change the result. In particular a ray behaves as a full line: the result may be behind its origin.",
  "all lists, all per-ray nonzero factors and slides, parallel rays included (exact arithmetic)",
  "quantified over representations of the same lines",
  [RI+"best_intersection_of_rays"])
p("best_intersection_of_rays commutes with rigid motions",
  "Moving all rays by a rotation and translation moves the result by the same motion, when two rays have |cos angle| < 1 - 1e-7.",
  "all isometries, all such lists (exact arithmetic)",
  "group equivariance",
  [RI+"best_intersection_of_rays"])
p("Near-parallel and parallel rays: bounded suboptimality, minimum norm",
  "For any two or more rays with nonzero directions - parallel or not - the result r is no longer than any least-squares point x, and its sum of squared distances exceeds the minimum by at most 1e-7*|x|^2. For exactly parallel rays r is the least-squares point closest to the world origin.",
  "all lists of at least two rays with nonzero directions, every valid SVD (exact arithmetic)",
  "unconditional bound over all configurations",
  [RI+"best_intersection_of_rays, my_pinv"])
p("Crossing rays at a tiny angle are not intersected",
  "There are rays that cross in exactly one point but for which best_intersection_of_rays returns Ok of a different point (the 1e-7 pseudo-inverse cutoff drops the informative direction). So 'crossing rays return the crossing point' is false without the angle condition.",
  "a family of crossing pairs with arbitrarily distant crossing point (exact arithmetic)",
  "needs a proof that the threshold branch is taken for every valid SVD",
  [RI+"my_pinv"])
p("Multi-view triangulation round trip",
  "Project a world point with n >= 2 perspective cameras, back-project each pixel with pixel_to_world/to_single_ray and intersect: the original point is recovered, if it has nonzero depth in each and two cameras see it under an angle with |cos| < 1 - 1e-7.",
  "all camera rigs with nonzero focal lengths, all points (exact arithmetic)",
  "end-to-end law over rigs of any size",
  [RI+"best_intersection_of_rays", C+"world_to_pixel, pixel_to_world", L+"to_single_ray"])
p("Serialization round trip",
  "Serializing and then deserializing an ExtrinsicParameters, IntrinsicParametersPerspective, IntrinsicParametersOrthographic, Camera or RayBundle gives back an equal value, although caches are not serialized.",
  "every value constructible through the API, every scalar type whose scalars round-trip",
  "all values",
  [X+"Serialize/Deserialize for ExtrinsicParameters", IP+"Serialize/Deserialize", IO+"derive", C+"derive", L+"RayBundle derive"])
p("Deserialization accepts exactly one of each field, in any order",
  "From a map, deserializing ExtrinsicParameters succeeds iff keys rquat and camcenter each occur exactly once, no other key occurs, and both values parse; the order is irrelevant. For IntrinsicParametersPerspective the same with the single key params. A missing, duplicated or unknown key is an error that names it; entries are read in order and the first fault is the one reported, missing keys being noticed only at the end (rquat before camcenter). A rotation is exactly four numbers and a centre exactly three: too few are reported with the length found, too many with the length expected, and a value that is not a list as a type error.",
  "every sequence of map entries, every sequence (tuple) form",
  "all entry lists of any length",
  [X+"visit_map, visit_seq", IP+"visit_map, visit_seq"])
p("Caches are always consistent",
  "Every ExtrinsicParameters obtained by any constructor, including deserialization, has its caches (the ones the conversions use and the currently unused inverse rotation, inverse pose and centre with z=0) determined by its rotation and camera centre: two values with equal rotation and centre are equal and behave identically. Likewise the perspective intrinsics' matrix is determined by its parameters.",
  "every scalar type, every construction path",
  "all construction histories",
  [X+"ExtrinsicsCache", IP+"cache_p"])
p("Deserialization does not enforce a unit rotation",
  "A serialized rotation quaternion of norm != 1 is accepted, and the resulting extrinsics do not round-trip points: world_to_camera(camera_to_world(x)) = x fails. (Known gap in validation.)",
  "existence of an accepted input and a point; the round-trip defect is characterized for all quaternions",
  "tests only deserialize what was serialized",
  [X+"visit_map"])
p("Round-trip test utility covers the pixel grid and passes for the built-in models",
  "roundtrip_intrinsics generates exactly the pixels (border+i*step, border+j*step) inside [border, width-border) x [border, height-border), row by row, panics exactly when an unsigned subtraction underflows (border > height, or border > width with at least one row), does not terminate for step 0 on a nonempty range, and never reports a failure for a perspective (orthographic) model with nonzero focal lengths (scales).",
  "all widths, heights, steps, borders, all parameters (exact arithmetic)",
  "all grid sizes",
  [TU+"generate_uv_raw, roundtrip_intrinsics"])
p("Rounding error of the pixel round trip is bounded",
  "In floating point (any precision, overflow and underflow included), whenever the coordinate returned by camera_to_pixel(pixel_to_camera(pixel).point_on_ray()) is finite, it is within ((1+u)^4-1)(|pixel|+2|centre|+w(|scale|+1)) of the original for the orthographic model and for the perspective v coordinate, and within ((1+u)^6-1)(|pixel|+2|cx|+2|skew*y|+w(|fx|+1)) for the perspective u coordinate; u is the unit roundoff, w the smallest normal number.",
  "every arithmetic obeying the standard rounding model (f32, f64), all parameters, all pixels with finite result",
  "all roundings of all inputs",
  [IO+"pixel_to_camera, camera_to_pixel", IP+"pixel_to_camera, camera_to_pixel"])
p("Non-finite input never produces a finite pixel or ray",
  "If any coordinate of a world point is NaN or infinite then world_to_pixel gives NaN for both pixel coordinates (perspective) or no finite pixel coordinate (orthographic), and world_to_camera gives no finite coordinate; if a pixel coordinate is non-finite, the world ray returned by pixel_to_world has no finite direction component (perspective) or no finite centre component (orthographic).",
  "every floating-point type obeying the IEEE special-value rules, all parameters, all points",
  "all non-finite inputs times all parameters",
  [X+"world_to_camera, camera_to_world", IP+"pixel_to_camera, camera_to_pixel", IO+"pixel_to_camera, camera_to_pixel", C+"world_to_pixel, pixel_to_world"])
p("Degenerate projections are never reported as finite",
  "A point in the principal plane of a perspective camera (camera-frame z = 0) gets no finite pixel coordinate. With a focal length (or orthographic scale) of zero, which constructors accept, pixel_to_camera gives non-finite directions (ray centres) for every pixel.",
  "every floating-point type obeying the IEEE special-value rules, all parameters, all points and pixels",
  "all degenerate inputs",
  [IP+"camera_to_pixel, pixel_to_camera", IO+"pixel_to_camera"])
p("Rounding error of the pose transforms is bounded",
  "Each finite coordinate returned by world_to_camera (camera_to_world) in floating point differs from the exact-arithmetic result for the same numbers by at most ((1+u)^8-1) (resp. (1+u)^15-1) times an explicit quantity proportional to the largest coordinate of point and camera centre.",
  "every arithmetic obeying the standard rounding model, every quaternion, centre and point with finite result",
  "all roundings of all inputs",
  [X+"from_rotation_and_camcenter, world_to_camera, camera_to_world"])
p("Rounding error of projection is bounded",
  "Each finite pixel coordinate returned by camera_to_pixel is the exact pinhole (orthographic) projection up to 4 (2) roundings relative to the magnitude of the summands; a finite pixel implies nonzero depth. The ray directions (origins) returned by pixel_to_camera satisfy the exact inverse formula up to 6 (2) roundings, their third component being exactly 1 (0).",
  "every arithmetic obeying the standard rounding model, all parameters and points with finite result",
  "all roundings of all inputs",
  [IP+"camera_to_pixel, pixel_to_camera", IO+"camera_to_pixel"])
p("Rounding error of world_to_pixel is bounded",
  "For a perspective camera and a point whose depth exceeds twice the pose error bound, each finite pixel coordinate returned by world_to_pixel is within an explicit bound (proportional to the unit roundoff) of the pinhole projection of the exact camera-frame position.",
  "every arithmetic obeying the standard rounding model, all cameras, all points away from the principal plane",
  "all roundings of all inputs",
  [C+"world_to_pixel"])
p("Moving scene and camera together changes nothing",
  "If a rigid motion is applied to all world points and to the camera pose, camera coordinates and pixels of every point are unchanged (for any intrinsics), and the world rays returned by pixel_to_world are the moved rays. Every pose has such a moved pose.",
  "every rigid motion, every pose, every intrinsics implementing the trait, every batch (exact arithmetic)",
  "infinite family of motions, poses, points",
  [X+"world_to_camera, camera_to_world", C+"world_to_pixel, pixel_to_world"])
p("A pose is determined by camcenter and rotation, the quaternion up to sign",
  "Two extrinsic parameters convert all points alike if and only if their camcenter() and rotation() agree; two unit quaternions give the same rotation() if and only if they are equal or opposite.",
  "all poses built from unit quaternions (exact arithmetic)",
  "an equivalence over all poses and points",
  [X+"from_rotation_and_camcenter, rotation, camcenter, world_to_camera"])
p("The image in terms of right, up and forward",
  "The point camcenter + r*right + u*up + f*forward has pixel (cx + fx*r/f - skew*u/f, cy - fy*u/f) for a perspective camera (f != 0) and (cx + sx*r, cy - sy*u) for an orthographic one, and every world point is of that form: right is +u, up is -v, forward is +depth in the image.",
  "all poses, all parameters, all points (exact arithmetic)",
  "sign and axis conventions for all poses",
  [X+"right, up, forward, world_to_camera", C+"world_to_pixel"])
p("What a projection cannot see",
  "A perspective camera gives a point behind it the pixel of its mirror image through the camera centre (points behind the camera are not rejected); scaling scene and camera position together does not change the image; an orthographic image does not change when the camera moves along its viewing direction.",
  "all poses, parameters and points outside the principal plane (exact arithmetic)",
  "invariance over all points and scales",
  [C+"world_to_pixel", IP+"camera_to_pixel", IO+"camera_to_pixel"])
p("Straight lines have straight images and parallel lines a common vanishing point",
  "The pixels of points on a line of the world are collinear (both models); for a perspective camera, the pixel of x + t*d tends for t to infinity to the pixel of camcenter + d, whatever x, if d is not parallel to the image plane.",
  "all poses, parameters, lines, any number of points outside the principal plane (exact arithmetic)",
  "a statement about infinitely many points and a limit",
  [C+"world_to_pixel", IP+"camera_to_pixel", IO+"camera_to_pixel"])
p("Exact error of the linearization",
  "For a perspective camera and any offset o, however large, world_to_pixel(x+o) - world_to_pixel(x) is linearize_at(x)*o times depth(x)/depth(x+o); in particular the linearization is exact for offsets that keep the depth.",
  "all poses (world origin not in the principal plane), parameters, points and offsets outside the principal plane (exact arithmetic)",
  "tests compare small finite differences at sample points; this is the exact remainder for all offsets",
  [LI+"new, linearize_at", C+"world_to_pixel"])
p("Closed form of as_camera_matrix",
  "as_camera_matrix() is intrinsic matrix times matrix() divided by the third component of translation(); the sign correction for negative focal lengths present in the code never has an effect, and the linearization cache uses the same matrix.",
  "all poses and parameters (exact arithmetic)",
  "dead code can only be shown dead for all inputs",
  [C+"as_camera_matrix", LI+"new"])
p("Images determine the camera",
  "Two perspective cameras with positive focal lengths that agree on the pixels of all world points have identical intrinsic parameters, camcenter() and rotation(); without the sign condition a second solution (half turn about the axis with negated focal lengths and skew) exists. Orthographic cameras with positive scales agree on all pixels exactly when scales and rotation() agree and one point has the same pixel.",
  "all pairs of cameras (exact arithmetic)",
  "an implication from infinitely many observations",
  [C+"world_to_pixel", IP+"camera_to_pixel", IO+"camera_to_pixel"])
p("The two-ray result is the midpoint of the common perpendicular",
  "For two rays whose directions satisfy |cos| < 1 - 1e-7 (closer to parallel the function discards a singular value, see C37), a point returned by best_intersection_of_rays is the midpoint of the segment between the two lines that is perpendicular to both, and that segment is the shortest one between the lines.",
  "all pairs of rays with |cos| < 1 - 1e-7 for which a point is returned (exact arithmetic, exact SVD)",
  "geometric optimality over all pairs of skew lines",
  [RI+"best_intersection_of_rays"])
p("Combining ray sets",
  "Adding a ray whose line passes through the result does not change the result; uniting two ray sets with the same result gives that result; for fixed directions the result is a linear function of the ray centres (the last for any SVD routine).",
  "all ray lists in which some two directions have |cos| < 1 - 1e-7 and for which a point is returned (exact arithmetic, exact SVD)",
  "relates calls over all ray sets",
  [RI+"best_intersection_of_rays"])
p("Stability of the ray intersection",
  "Moving ray centres by at most e_i and unit directions by at most d_i moves the result by at most sum(e_i + 2 d_i * distance(centre_i, result)) divided by 1 - |cos| of the angle between any two of the directions: noise is amplified only by near-parallelism.",
  "all pairs of ray lists of equal length with results, some two directions in each having |cos| < 1 - 1e-7 (exact arithmetic, exact SVD)",
  "a bound over all perturbations",
  [RI+"best_intersection_of_rays"])
p("Ray intersection tolerates an inaccurate SVD",
  "If the SVD satisfies its defining equations only up to an error eta, the returned point differs from the true least-squares point x by at most eta / (1 - |cos| - eta) * |x|, for the angle between any two of the directions, provided that denominator exceeds the cutoff 1e-7.",
  "every SVD routine of residual eta, all ray lists with nonzero directions (otherwise exact arithmetic)",
  "quantifies over all SVD errors",
  [RI+"best_intersection_of_rays, my_pinv"])
p("Invalid rays never yield a finite point",
  "If any ray given to best_intersection_of_rays has zero or non-finite direction, or a non-finite centre, no coordinate of a returned point is finite (the call does not report an error for them); point_on_ray_at_distance likewise gives no finite coordinate for a zero direction or non-finite distance.",
  "every floating-point type obeying the IEEE special-value rules (arbitrary rounding), every ray list and position of the bad ray, every SVD routine",
  "all degenerate inputs in all positions",
  [RI+"best_intersection_of_rays", RB+"point_on_ray_at_distance", L+"RayBundle::point_on_ray_at_distance"])
p("from_view depends only on what it should",
  "The rows of rotation() are right, -up, forward; camcenter, forward and up determine the conversion of all points; from_view is unchanged if lookat moves along the line of sight or up is scaled or tilted towards lookat; from_view of a camera's own camcenter, forward and up rebuilds that camera; moving all arguments rigidly moves the camera.",
  "all non-degenerate view arguments, all valid poses, all rigid motions (exact arithmetic)",
  "equivalences over all arguments and points",
  [X+"from_view, rotation, forward, up, right"])
p("Inexact pi in from_view only rolls the camera",
  "If the constant pi used by from_view is replaced by any number p (as rounding does), the result is still a valid pose with exact camcenter and forward direction; up and right are rotated by the angle pi - p about the viewing direction, and lookat still maps to the principal point.",
  "every value p, all non-degenerate view arguments (otherwise exact arithmetic)",
  "effect of the rounding of a constant for all views",
  [X+"from_view"])
p("Re-posing ray bundles is compositional",
  "to_pose by h and then by g equals to_pose by the composition of g and h, and to_pose by a pose and then by its inverse gives the original bundle, for both bundle types.",
  "all bundles of any size; composition for any scalar type, inverse for unit quaternions in exact arithmetic",
  "relates sequences of calls over all poses",
  [RB+"to_pose"])
p("Effect of a quaternion that is not exactly of unit norm",
  "With d = |q|^2 - 1: matrix()*(x,1) exceeds world_to_camera(x) by exactly d*x; the camera centre is converted to -d*camcenter instead of the origin; squared distances between converted points are off by at most a factor 4|d||q|^2.",
  "all quaternions, centres and points (exact arithmetic)",
  "tests use normalized quaternions; this quantifies the deviation for all others",
  [X+"from_rotation_and_camcenter, world_to_camera, matrix, camcenter"])
p("Rounding error of the full camera round trip",
  "pixel_to_world, a point on the ray, and world_to_pixel return the original pixel up to an explicit bound in the unit roundoff, the underflow threshold, the quaternion's norm defect and the magnitudes of parameters, ray direction and camera centre, for perspective (if the bound in the camera frame is at most 1/2) and orthographic cameras, whenever the result is finite; for 64-bit floats and perspective cameras with rotation of unit norm within 1e-15, centre within 1000, parameters and pixels within 10000 and direction within 2, the error is at most 1e-3 pixel.",
  "every arithmetic obeying the standard rounding model, all cameras, all pixels, bundles of any size",
  "tests compare a few cameras at a fixed tolerance; the bound covers all of them",
  [C+"pixel_to_world, world_to_pixel", X+"world_to_camera, ray_camera_to_world", RB+"point_on_ray"])
p("The camera round-trip test is sound, complete and blind to the pose",
  "The camera-level test helper passes exactly when every pixel of the sampled grid comes back within eps; for valid poses it has the same outcome as the intrinsics-level helper for all arguments; it passes for every perspective or orthographic camera with nonzero focal lengths or scales at every pose and every tolerance.",
  "all cameras, image sizes, steps, borders and tolerances (exact arithmetic)",
  "a statement about the test itself: what passing it does and does not imply",
  [C+"roundtrip_camera", TU+"generate_uv_raw"])
p("Rounding error of the ray intersection",
  "A finite result of best_intersection_of_rays is within (520 N^2 u + 170 N eta)/(1 - |cos| - 48 N^2 u - 2 N eta) * (M + |x|) of the exact least-squares point x of the given rays, where N is the number of rays, u the unit roundoff, eta the backward error of the singular value decomposition, M bounds the ray centre coordinates, and cos is the cosine between any two of the rays, provided the denominator exceeds 1.01e-7 and N u, eta are at most 1/100.",
  "every arithmetic obeying the standard rounding model (with a separate f64 type for sums and pseudo-inverse), all lists of rays with directions neither overflowing nor underflowing when squared",
  "tests compare a few intersections at a fixed tolerance; the bound covers all ray configurations and float types",
  [RI+"best_intersection_of_rays, my_pinv"])
p("Meaning of == on poses, intrinsics, cameras and ray bundles",
  "Two poses compare equal exactly when their centres agree and their quaternions agree up to sign, which for unit quaternions is exactly when they map all points alike; two perspective cameras with positive focal lengths compare equal exactly when they take the same images; poses that compare equal transform points and rays alike and have the same matrix, cameras that compare equal take the same pixels to the same rays and have the same camera matrix (their serialized or printed form can still differ in the sign of the quaternion). With IEEE special values a NaN parameter makes a value unequal to everything including itself, and so does an infinite camera centre meeting a zero entry of the rotation matrix.",
  "all poses, parameters, cameras and bundles (exact arithmetic); NaN part: every scalar type with IEEE special values",
  "an equivalence between a comparison and the behaviour on all points; precomputed fields take part in the comparison",
  [C+"Camera (PartialEq)", X+"ExtrinsicParameters (PartialEq)", IP+"IntrinsicParametersPerspective (PartialEq)", IO+"IntrinsicParametersOrthographic (PartialEq)", RB+"SharedOriginRayBundle, SharedDirectionRayBundle (PartialEq)", L+"RayBundle (PartialEq)"])
p("The wireframe example draws a faithful, complete picture",
  "render_wireframe panics exactly when an edge names a missing vertex. Otherwise each edge becomes one line and two dots, at the projected pixels magnified by one positive factor common to both axes and shifted; all end points keep a border of 5 (the dot radius) inside the 300x200 picture, the picture touches the left and upper border and the right or the lower one. The principal point of the camera and the position of an orthographic camera do not affect the picture.",
  "all meshes, edge lists and cameras whose image is not degenerate in either axis (exact arithmetic; panics: any scalar type)",
  "the example is only run on one cube with two cameras, and nothing checks its output",
  [EX+"render_wireframe, SvgWriter::add_edge, SvgWriter::save"])
p("Rounding error of the camera matrix",
  "Every entry of a finite result of as_camera_matrix, and of the matrix kept for linearization, differs from the entry of the exact camera matrix by at most an explicit bound in the unit roundoff, the magnitudes of parameters and centre, and the depth T of the world origin; for quaternions of nearly unit norm the error is at most 40000 u F ((1+M)/|T|)^2, where F bounds the intrinsic parameters and M the coordinates of the camera centre.",
  "every arithmetic obeying the standard rounding model, all perspective cameras whose world origin is not within rounding error of the principal plane",
  "tests check the matrix of a few cameras at a fixed tolerance; the bound shows how accuracy degrades as the origin approaches the principal plane",
  [C+"as_camera_matrix", LI+"JacobianPerspectiveCache::new"])
p("Rounding error of the linearization",
  "Every finite entry of the Jacobian computed by linearize_at differs from the entry of the exact Jacobian at the same point by at most 44 roundings of an explicit quantity in the magnitudes of parameters, centre and point and in the depths of the world origin and of the point.",
  "every arithmetic obeying the standard rounding model with an accurate reciprocal square, all perspective cameras and points, origin and point not within rounding error of the principal plane and the squared depth not overflowing",
  "tests compare the Jacobian with finite differences at one point; the bound covers all points and shows the dependence on depth",
  [LI+"linearize_at, JacobianPerspectiveCache::new"])
p("A view that determines no camera is never silently finite",
  "If from_view is given a target equal to the camera centre, a NaN or infinity anywhere, an up vector that is zero or has zero computed cross product with the viewing direction (for example looking straight down with a vertical up), or points so far apart or so close that their distance overflows or underflows, then no entry of the pose, rotation, translation or axes is finite, no point is mapped to a finite point, every perspective pixel is NaN, and no orthographic pixel, ray direction or camera matrix entry is finite.",
  "every scalar type with IEEE special values, all such arguments, all points, pixels and intrinsics",
  "from_view returns no error, so users must recognise the failure from the result; special values propagate through square roots, normalization and branches in ways a few literals do not cover",
  [X+"from_view", C+"world_to_pixel, pixel_to_world, as_camera_matrix"])
p("Singular or non-finite projection matrices never give a usable-looking camera",
  "If the determinant of the left 3x3 block of the matrix given to from_perspective_matrix is computed as zero, or the matrix contains NaN or an infinity, the call still returns Ok, but with a non-finite camera centre: no translation entry, no converted point and no ray origin is finite, and every pixel and every camera matrix entry is NaN.",
  "every scalar type with IEEE special values, all such matrices, every QR and matrix-to-quaternion routine",
  "from_perspective_matrix reports no error; that the failure is always visible in later results is a statement about all points and pixels",
  [C+"from_perspective_matrix, pmat2cam_center, rq_decomposition"])
p("Rounding error of from_view",
  "Computed in floating point, from_view returns a pose close to the exact view: whenever its quaternion is finite and the lengths it computes neither overflow nor underflow, the quaternion is within 350 u/s (in Euclidean length) of a unit quaternion of the exact view, its squared norm within 712 u/s of one, every entry of rotation() within 750 u/s, and world_to_camera of a point within 3500 M u/s, where u is the unit roundoff, s the sine of the angle between view direction and up vector and M bounds the coordinates; for 64-bit floats and angles between 30 and 150 degrees world_to_camera is within 8e-13 M.",
  "every arithmetic obeying the standard rounding model, all camera centres, targets and up vectors with s at least 11000 u, all points",
  "a unit test compares one view; the loss of accuracy near up parallel to the view direction depends on the angle and on the branch taken in the quaternion conversion",
  [X+"from_view, world_to_camera"])
p("Ordinary inputs never give NaN or infinity",
  "Overflow is excluded by explicit ranges: with rotation components at most 2, coordinates at most 2^k, parameters and pixels at most 2^m, all of world_to_camera, camera_to_world, the camera's pixel_to_world rays and points on them are finite and at most 2^(k+24); pixels are finite for points at depth at least 2^-l that are not within rounding error of the principal plane; ray directions are finite for focal lengths at least 2^-l; the full pixel round trip is finite; each provided an explicit sum of the exponents is at most 1023 (f64) or 127 (f32). The same for orthographic cameras.",
  "IEEE 754 binary formats of any precision and exponent range (f32 and f64 among them), all inputs in the ranges, bundles of any size",
  "a NaN appears only for particular bit patterns in billions; tests cannot enumerate inputs",
  [X+"world_to_camera, camera_to_world", IP+"pixel_to_camera, camera_to_pixel", IO+"pixel_to_camera, camera_to_pixel", C+"world_to_pixel, pixel_to_world", RB+"point_on_ray"])
p("f64 and f32 cameras in ordinary ranges are accurate",
  "f64, perspective: centre and point coordinates up to 1000, parameters up to 10000, rotation unit within 1e-15. A point at depth at least 1 with slopes at most 10 is projected to a finite pixel within 1e-4 of the exact pixel; with focal lengths at least 1, a pixel up to 10000 whose ray direction is at most 2 is recovered by pixel_to_world, point_on_ray, world_to_pixel within 1e-3. f32: coordinates up to 10, parameters up to 1000, skew up to 10, rotation unit within 1e-6, depth at least 1, slopes at most 1: finite and within half a pixel.",
  "all f64 and f32 inputs in the ranges, for IEEE 754 arithmetic rounding to nearest even, including subnormals and signed zeros; any libm",
  "tests compare a few cameras at a fixed tolerance; the statement covers every bit pattern in range",
  [C+"world_to_pixel, pixel_to_world", X+"from_rotation_and_camcenter, world_to_camera", IP+"camera_to_pixel, pixel_to_camera"])
p("a well-posed view is a finite and accurate floating-point camera",
  "If from_view gets finite f64 arguments in range (up to 2^500), a viewing direction and up vector at least 2^-10 long and an angle between them of 30 to 150 degrees, then no intermediate result overflows, the rotation is finite and every entry of rotation() is within 1.7e-13 of the exact view (f32: range 2^50, within 9e-5). With coordinates up to M <= 1024, world_to_camera is finite and within 8e-13 M of the exact view (f32: 4.2e-4 M), and a perspective camera with parameters up to F <= 2^20 projects points at depth Z >= M/1000 and slopes <= r to finite pixels within 4e-12 (M/Z) F (r+1) of the exact pixel (f32: 1.7e-3 (M/Z) F (r+1)). In particular the point looked at, at a distance d >= M/1000, is imaged within 4e-12 (M/d) F of the principal point (f32: 1.7e-3 (M/d) F).",
  "all f64 / f32 arguments in the ranges; IEEE 754 arithmetic; any libm whose sine and cosine are finite and accurate to 2^-53 (2^-24) on [-2, 2]",
  "overflow or NaN for particular view directions would need exhaustive search to exclude; tests sample a handful of views",
  [X+"from_view, rotation, world_to_camera", C+"world_to_pixel"])
p("from_perspective_matrix in floating point represents the given matrix",
  "For a finite 3x4 matrix whose left rows have lengths between 1/B and B and whose left block has determinant at least kappa times the product of these lengths, with camera centre within B of the origin, from_perspective_matrix returns Ok with a finite camera: positive focal lengths, a rotation within 60600 u (per quaternion component) of a unit quaternion Q, a camera centre within 95 u (1+|c|)/kappa of the exact null point c, and a camera matrix K R(Q) which, times one common factor of the length of the third row, reproduces row i of the left block within 13600 u times its length. For f64: B = 2^200, kappa >= 1e-10; f32: B = 2^25, kappa >= 0.006.",
  "every arithmetic obeying the rounding and range laws, f64 and f32 in particular; all matrices in the class",
  "Householder reflections, sign flips and the quaternion conversion branch on signs and sizes of computed values; a test covers one matrix",
  [C+"from_perspective_matrix, rq_decomposition, rq, pmat2cam_center", X+"from_rotation_and_camcenter"])
p("Projecting with the camera of a matrix agrees with the matrix, in f64",
  "For an f64 projection matrix P in the class of C80 with kappa >= 1e-4, camera centre c with coordinates up to M <= 1024 and first rows at most F <= 2^19 times as long as the third: from_perspective_matrix returns a camera whose world_to_pixel maps every point x with coordinates up to M at depth z >= 1 to a finite pixel within 3e-8 M F |x-c|/z of the exact projection P (x,1) dehomogenized.",
  "all f64 matrices and points in the ranges; IEEE 754 arithmetic",
  "the end-to-end guarantee spans factorization, quaternion conversion, pose and projection for every bit pattern in range",
  [C+"from_perspective_matrix, world_to_pixel"])
p("Ray intersection with nalgebra's own SVD: convergence and accuracy",
  "For two or more rays with nonzero directions best_intersection_of_rays always returns Ok: the SVD converges within the 100 iterations granted, Err(SvdFailed) cannot occur. With eta = 1.1e-6 n for n rays, the point is within eta/(kappa - eta) |x| of the least-squares point x, where kappa > eta + 1e-7 measures how far the directions are from being parallel (1 - |cos| of the angle of any two rays will do); in particular for rays through a common point and for triangulation with perspective cameras. For parallel rays it is within 1e-5 |x| of the least-squares point x closest to the origin. For two rays crossing at x with cos >= 1 - 9.9e-8 it is within 1e-5 |x| of x with the component along the bisector removed.",
  "all ray lists with nonzero directions (exact arithmetic), the SVD being nalgebra's algorithm, no contract assumed",
  "convergence of an iteration for all inputs, and an error bound for all of them, cannot be tested",
  [RI+"best_intersection_of_rays, my_pinv"])
p("Ray intersection in f64 and f32 with nalgebra's own SVD: convergence, finiteness and accuracy",
  "For 2 to 2^30 rays with finite coordinates up to 2^500 (f32: 2^60) in magnitude and directions whose squared length does not underflow, best_intersection_of_rays always returns Ok with a point of finite coordinates in f64 and in f32: the SVD, run in f64, converges within its 100 iterations, and nothing overflows, however the rays lie (crossing, skew, parallel or nearly parallel). If moreover kappa = 1 - |cos| - 1.4e-6 n (f32: 7.1e-6 n) exceeds 1.01e-7 for the angle of some two of the n rays, the point is within 1.6e-6 n/kappa (M + |x|) (f32: 6.4e-5 n/kappa (M + |x|)) of the exact least-squares point x of the given rays, where M bounds the coordinates of the ray centres.",
  "all ray lists in range, every bit pattern; IEEE 754 arithmetic throughout, nothing assumed about the SVD",
  "convergence and accuracy of a floating-point iteration over all inputs cannot be sampled",
  [RI+"best_intersection_of_rays, my_pinv"])
p("Rays that nearly meet: distance of the point found from the common point",
  "If every one of n rays passes within tau of a point x, and two of them are not parallel (angle with cosine c), the least-squares point is within rho = tau sqrt(n / (1 - |c|)) of x. best_intersection_of_rays returns a point within rho plus its own error of x: for f64 finite and within rho + 1.6e-6 n/kappa (M + |x| + rho), kappa = 1 - |c| - 1.4e-6 n > 1.01e-7; for f32 likewise with the constants of C83; in exact arithmetic with those of C82.",
  "all ray lists in the ranges of C82 / C83, all points x and all tau",
  "the effect of any combination of ray errors on the result is a statement about a continuum of inputs",
  [RI+"best_intersection_of_rays"])
p("Triangulation in f64 from measured pixels",
  "n >= 2 perspective f64 cameras (rotation of unit norm up to 1e-15, focal lengths between 1 and 2^20, skew at most the focal length, principal point within ten focal lengths) see a point x at depth at least M/100, within slope 10, all coordinates at most M, 1 <= M <= 2^20. If every pixel given is within sigma <= 1/100 focal lengths of the exact projection of x, then the pipeline pixel_to_world, to_single_ray, best_intersection_of_rays returns Ok with a finite point within rho + 1.7e-6 n/kappa (M + |x| + rho) of x, where kappa = 1 - |cos| - 13 sigma - 1.5e-6 n > 1.01e-7 for the angle under which some two cameras see the point and rho = (13 sigma + 2e-12) M sqrt(n/kappa). If the pixels are those computed by world_to_pixel for the f64 point x, the point found is within 1.8e-6 n/kappa (M + |x|), kappa = 1 - |cos| - 1.6e-6 n.",
  "all f64 cameras, points and pixels in the ranges; IEEE 754 arithmetic throughout, nalgebra's own SVD",
  "the error passes through projection, back projection, pose and an iterative decomposition; a test covers one scene",
  [C+"pixel_to_world, world_to_pixel", RI+"best_intersection_of_rays", L+"to_single_ray"])
p("Debug output shows exactly the parameters",
  "The Debug texts of two cameras (perspective or orthographic), in the one-line format and in the {:#?} format alike, are equal if and only if their parameters (intrinsics, rotation, camera centre) are equal; nothing that is cached enters the text. In the {:#?} format every field stands on its own line, indented by four spaces per level of nesting. For any way of writing numbers that tells different numbers apart and uses no comma, space or bracket. The text of an Error names its variant, different for each, and Display gives the same text as Debug.",
  "all parameter values and cache contents, both formats, any number formatting of that kind",
  "injectivity of a text format over all numbers cannot be tested; a test compares a few texts",
  [C+"Camera (derived Debug)", X+"impl Debug for ExtrinsicParameters", IP+"impl Debug for IntrinsicParametersPerspective", IO+"derived Debug", L+"Error: Debug, Display"])
p("Camera matrix and Jacobian in f64",
  "A perspective f64 camera with intrinsic parameters at most F <= 2^20 (F >= 1), a rotation of unit norm up to 1e-15, a centre with coordinates at most M <= 2^20 and a world origin whose depth T is at least 1e-9 (1 + M) in magnitude: as_camera_matrix has only finite entries, each within 2e-13 F ((1 + M)/|T|)^2 of the exact camera matrix. At any point with coordinates at most M and depth Z of magnitude at least 1e-9 (1 + M), linearize_at has only finite entries, each within 2e-11 F (1 + M)^2 / |Z|^3 of the exact Jacobian; T does not enter this bound.",
  "all f64 cameras and points in the ranges, both branches of the sign flip",
  "finiteness and accuracy over all cameras and points; cancellation depends on the values",
  [C+"as_camera_matrix", LI+"JacobianPerspectiveCache::new, linearize_at"])
p("Orthographic f64 cameras, and triangulation with cameras of both kinds",
  "An orthographic f64 camera (rotation of unit norm up to 1e-15, centre with coordinates at most M, 1 <= M <= 2^20, scales between 2^-20 and 2^20 pixels per unit, image centre standing for at most 10 M units): world_to_pixel of a point with coordinates at most M is finite and within 3e-14 M s pixels of the exact projection, s being the scale of the axis; a pixel at most 15 M s in magnitude comes back from pixel_to_world, point_on_ray, world_to_pixel finite and within 2e-10 M s. n >= 2 cameras of which some are of this kind and the others perspective cameras as in C85 see a point x: if every pixel is within sigma focal lengths (orthographic: sigma M s) of the exact projection, sigma <= 1/100, pixel_to_world, to_single_ray, best_intersection_of_rays return Ok with a finite point within rho + 1.6e-6 n/kappa (6 M + |x| + rho) of x, where kappa = 1 - |cos| - 13 sigma - 1.5e-6 n > 1.01e-7 for the directions in which some two cameras see the point (an orthographic camera: its optical axis), rho = (13 sigma + 2e-12) M sqrt(n/kappa). For pixels computed by world_to_pixel: within 1.7e-6 n/kappa (6 M + |x|), kappa = 1 - |cos| - 1.6e-6 n.",
  "all f64 cameras of both kinds, points and pixels in the ranges; IEEE 754 arithmetic throughout, nalgebra's own SVD",
  "rounding errors over all scenes and all mixtures of cameras; a test covers one scene",
  [IO+"pixel_to_camera, camera_to_pixel", C+"pixel_to_world, world_to_pixel", RI+"best_intersection_of_rays", L+"to_single_ray"])
p("Parallel and nearly parallel rays in f64",
  "For rays in the range of C83 in f64, with M bounding the coordinates of their centres, best_intersection_of_rays returns Ok with a finite point that depends on the rays as in exact arithmetic (C82): for 2 to 3000 parallel rays it is within 1e-5 |x| + 2e-6 M of the least-squares point x closest to the origin. Two rays crossing in x with cosine at least 1 - 9.7e-8 give a point within 1e-5 |x| + 2e-6 M of x with its component along the bisector of the rays removed: the depth is lost, not just inaccurate. In general, if moving along a unit vector beta changes the normal equations of n rays by at most 9.8e-8 - 1e-11 n - 6e-15 n^2, the point is within 1e-5 |x| + 2e-6 M of any least-squares point x with its component along beta removed.",
  "all f64 ray lists in the ranges, every bit pattern; nalgebra's own SVD, IEEE 754 arithmetic throughout",
  "whether rounding lets a tiny singular value through the cutoff depends on every bit of the input; tests sample a few lists",
  [RI+"best_intersection_of_rays, my_pinv"])
p("Which 3x4 matrices are accepted as normalized, in f32 and f64",
  "IntrinsicParametersPerspective::from_normalized_3x4_matrix with scalar f64 (f32) returns Ok exactly if the entries (0,3), (1,0), (1,3), (2,0), (2,1), (2,3) are finite and at most EPSILON in magnitude and entry (2,2) is finite and within EPSILON of 1, where EPSILON is 2^-52 (2^-23); otherwise, in particular if one of the seven is infinite or NaN, it returns InvalidInput. No other entry is looked at. The tolerance costs little: if the seven entries of a real matrix deviate by at most e, then for a point (x, y, z) in front of or behind the camera with h = e (|x/z| + |y/z| + 1 + 1/|z|) <= 1/2, the pixel of the camera built differs from the projection by the matrix itself by at most 2 h (1 + |pixel coordinate|) in each coordinate.",
  "all f64 and f32 matrices including infinities and NaN, with correct rounding in every comparison; all real matrices and points for the bound",
  "the comparison uses a rounded difference and a rounded product, so the exact border depends on single bits of the entry; tests try a few values",
  [IP+"from_normalized_3x4_matrix"])
p("The point at a distance along a ray, in f64 and f32",
  "A ray of a bundle of either kind in f64, with centre, direction and distance t at most 2^510 in magnitude and one coordinate of the direction at least 2^-510: point_on_ray_at_distance is finite and each coordinate is within 1.6e-15 (|c| + |t|) + 2^-500 of the exact point c + t d/|d|, which is on the ray at distance |t| from its origin (f32: 2^62, 2^-62, 9e-7 (|c| + |t|) + 2^-80). A pixel and a distance therefore give the point: for a perspective f64 camera and a point x in front of it as in C85, a pixel within s focal lengths of the exact projection and a distance t at most 100 M, pixel_to_world followed by point_on_ray_at_distance gives a finite point within |t - |x - centre|| + (26 s + 6e-12) M of x, or |t - |x - centre|| + 3e-9 M if the pixel is the one computed by world_to_pixel. For an orthographic camera as in C88 and any depth z, a pixel within s M units gives a point within |t - z| + (13 s + 8e-12) M of x. In f32 the same holds for a distance t at most 10 M: for a perspective camera as in C99 within |t - |x - centre|| + (26 s + 7.4e-4) M, or + 0.0052 D M for the computed pixel (D <= 50), and for an orthographic camera as in C101 within |t - z| + (13 s + 4e-4) M.",
  "all f64 and f32 rays, distances, cameras, points and pixels in the ranges; IEEE 754 arithmetic throughout",
  "overflow and cancellation depend on the magnitudes; the bound covers all rays, a test a few",
  [RB+"point_on_ray_at_distance", L+"RayBundle::point_on_ray_at_distance", C+"pixel_to_world, world_to_pixel"])
p("Triangulation never fails",
  "Whatever pixels are fed to it: for a list of 2 to 2^30 f64 cameras, perspective or orthographic in any mixture (rotation of unit norm up to 1e-3, centre at most 2^484, intrinsic parameters at most 2^120, focal lengths or scales at least 2^-120), with one pixel each (coordinates at most 2^120), pixel_to_world, to_single_ray and best_intersection_of_rays return Ok with a finite point. No assumption on the angles between the rays, on coinciding cameras or pixels, or on a common point. The same in f32 with centres at most 2^45, intrinsic parameters and pixels at most 2^17, focal lengths or scales at least 1/16.",
  "all f64 and f32 cameras and pixels in the ranges, every bit pattern; nalgebra's own SVD, IEEE 754 arithmetic throughout",
  "overflow, a vanishing direction or a failing decomposition could come from any combination of cameras and pixels; a test tries a few",
  [C+"pixel_to_world", L+"to_single_ray", RI+"best_intersection_of_rays"])
p("A camera survives the trip through its matrix in f64",
  "Take an f64 perspective camera whose parameters are at most F in magnitude (1 <= F <= 2^18), with focal lengths of at least F/10, a rotation of unit norm up to 1e-15 and a centre with coordinates up to M (1 <= M <= 1000), placed so that the last entry of the matrix is not negligible (z translation at least 1e-9 (1+M)). Then from_perspective_matrix accepts what as_camera_matrix returns, the camera it makes has its centre within 5e-10 M of the original one, and for every point with coordinates up to M at a depth of at least 1.1, in front or behind, world_to_pixel of the two cameras gives finite pixels that differ by at most 6e-8 M F / cos, where cos is the cosine of the angle between the point and the optical axis.",
  "all f64 cameras and points in the ranges, every bit pattern; nalgebra's own QR and rotation-to-quaternion conversion, IEEE 754 arithmetic throughout",
  "the division by the corner entry, the normalisation, the decomposition and the two projections each round; a test compares a handful of pixels of a handful of cameras with a tolerance chosen by trial",
  [C+"as_camera_matrix", C+"from_perspective_matrix", C+"world_to_pixel"])
p("What is exact in f32 and f64",
  "For f32 and f64 and every bit pattern, including infinities and NaN (all NaNs counted as one value): reversing the direction of any of the rays does not change the result of best_intersection_of_rays at all. A camera built from the quaternion -q instead of q has identical rotation and translation, extrinsic matrix, camera matrix and Jacobian; its world_to_camera, camera_to_world and orthographic pixels are equal coordinate by coordinate, up to the sign of a zero, and each coordinate of a perspective pixel is equal or not finite for either. A camera with the identity rotation transforms a finite point v by a single rounded operation per coordinate, v - centre for world_to_camera and v + centre for camera_to_world. A camera in the origin with identity rotation, focal lengths or scales 1 and no skew or offset does not round at all: world_to_pixel of the point_on_ray of pixel_to_world is equal to the pixel, for every finite pixel.",
  "all f32 and f64 rays, quaternions, centres, intrinsic parameters, points and pixels as stated, every bit pattern; any SVD for the rays",
  "equality of bits for all bit patterns: a test compares a few",
  [RI+"best_intersection_of_rays", X+"from_rotation_and_camcenter, world_to_camera, camera_to_world, matrix", C+"world_to_pixel, pixel_to_world, as_camera_matrix", LI+"JacobianPerspectiveCache::new, linearize_at"])
p("In f64 and f32 the intersection hardly depends on how the lines are written",
  "Two lists of 2 or more f64 rays in the range of C83 that describe the same lines, in any order, with any origins, lengths and senses along each line: best_intersection_of_rays returns Ok with finite coordinates for both, and the two points differ by at most 3.2e-6 N / k (M + |x|), where x is the least-squares point of the lines, M bounds the coordinates of the origins, N is the number of rays and k = 1 - |cos| - 1.4e-6 N for any two of the rays, if k > 1.01e-7 (f32: 1.28e-4 N / k, k = 1 - |cos| - 7.1e-6 N). If the rays are disturbed instead, each origin by e and each unit direction by d, the two points differ by at most B + 1.6e-6 N / k (M + |x|) + 1.6e-6 N / k' (M + |x| + B), where B is the sum of e + 2 d |origin - x|, divided by 1 - |cos'| (f32: 6.4e-5).",
  "all f64 and f32 ray lists in the ranges, every bit pattern, all orders, all choices of origin and direction on each line; nalgebra's own SVD, IEEE 754 arithmetic throughout",
  "sums of rounded numbers depend on the order and on every bit of origin and direction; tests compare a few orders and rays",
  [RI+"best_intersection_of_rays"])
p("Frame changes and the axes of a camera in f64 and f32",
"For a camera with a finite rotation quaternion of squared norm within 1e-15 (f64) or 1e-6 (f32) of one and all coordinates at most M >= 1 in magnitude: world_to_camera followed by camera_to_world, and the other way around, return every coordinate up to 1e-13*M (f64) or 6.2e-5*M (f32); the distance of two points is the same before and after world_to_camera up to 4.4e-14*M or 3.2e-5*M; nothing overflows for M up to 2^900 or 2^80. right(), up() and forward() are finite and each coordinate is within 1.5e-13*M (f64, M up to 1e12) or 1e-4*M (f32, M up to 1500) of the first row, the negated second row and the third row of the rotation matrix, where M bounds the coordinates of the camera centre. This growth with the distance from the origin is real: for a camera that is not rotated and whose x, y or z coordinate exceeds 2^54 (f64) or 2^25 (f32), all coordinates of right(), up() or forward() respectively are NaN.",
"all f64 and f32 cameras with nearly unit quaternions, centres, batches of points and bounds M",
"the axes are a difference of two nearby points, so the error depends on where the camera stands; tests put cameras near the origin, where the loss does not show",
[X+"58-98, 160-265"])
p("Which inputs Camera, the parameter structs, IntrinsicParametersOrthographic and RayBundle deserialize from",
"From a map, Camera, PerspectiveParams, OrthographicParams, IntrinsicParametersOrthographic, SharedOriginRayBundle, SharedDirectionRayBundle and RayBundle deserialize iff every field occurs exactly once and its value parses. The order of keys is irrelevant, and keys that are not fields are ignored wherever they stand, whereas ExtrinsicParameters and IntrinsicParametersPerspective refuse them. From a sequence they need exactly the fields in declaration order. The error is that of the first fault of the input: a repeated field is named, a value that cannot be read gives its own error (a type error where a number is expected), and if no entry is at fault the first missing field in declaration order is named; a sequence that is too short or too long reports a wrong length, anything else a type error. The data of a RayBundle is written and read column by column: all first coordinates, then all second, then all third; with a run-time number of rays the number of rays is stored too and must agree with the number of values.",
"all maps (any keys, repetitions, order), all sequences, all scalar types and token types, all numbers of rays",
"the accepted inputs are infinitely many malformed or extended documents, and tests only read back what the crate wrote; whether unknown keys are refused differs between the hand-written and derived implementations",
[C+"71", IP+"51", IO+"44, 68", RB+"10, 183", L+"261-274"])
p("The wireframe example in f64",
  "The picture written by the wireframe example agrees, in f64 arithmetic, with an exactly magnified and shifted image that fits the 300x200 picture: the same magnification on both axes, a border of 5 kept on all sides, touching the left and the upper border and one of the others. If no pixel coordinate exceeds K times the width or height of the image (K at most 2^30, coordinates between 2^-900 and 2^900), every drawn coordinate is a finite number within K*1e-12 of the exact one; line width and dot radius are exactly 2 and 5. One axis may be flat (all vertices in a row or a column). Vertices whose image is NaN (a vertex in the camera centre) are drawn as NaN and do not disturb the others. If all vertices coincide in the image, everything is drawn as NaN; a single coordinate that is +infinity (a vertex in the plane of the camera) collapses the picture: all finite coordinates are drawn at 5.",
  "all vertices, edges, cameras whose f64 pixel coordinates are as stated; all behaviours of f64::min and f64::max that the documentation allows (either zero)",
  "The rounding errors depend on all inputs, and the behaviour of min, max and the comparison for NaN, infinities, flat axes and signed zeros has many combinations; the example has no tests.",
  [EX+"60-139", EX+"145-172"])
p("Triangulation in f32 from measured pixels",
  "n >= 2 perspective f32 cameras (rotation of unit norm up to 1e-6, parameters at most 2^20, focal lengths at least 1, skew at most the focal length, principal point within ten focal lengths) see a point x at depth at least M/D, within slope 10, all coordinates at most M, 1 <= M <= 2^20, 1 <= D <= 300. If every pixel given is within sigma <= 1/100 focal lengths of the exact projection of x, then the pipeline pixel_to_world, to_single_ray, best_intersection_of_rays returns Ok with a finite f32 point within rho + 6.5e-5 n/kappa (M + |x| + rho) of x, where kappa = 1 - |cos| - 13 sigma - 6e-4 D - 7.1e-6 n > 1.01e-7 for the angle under which some two cameras see the point and rho = (13 sigma + 3.3e-4) M sqrt(n/kappa). If the pixels are those computed by world_to_pixel for the f32 point x and D <= 50, the same holds with kappa = 1 - |cos| - D/350 - 7.1e-6 n and rho = 0.0026 D M sqrt(n/kappa).",
  "all f32 cameras, points and pixels in the ranges; IEEE 754 arithmetic throughout, the decomposition computed in f64 by nalgebra's own SVD",
  "single precision loses most digits on the way through projection, back projection and pose; a test covers one scene and usually uses f64",
  ["src/camera.rs: pixel_to_world, world_to_pixel", "src/ray_intersection.rs: best_intersection_of_rays", "src/lib.rs: to_single_ray"])
p("Camera matrix and Jacobian in f32",
  "A perspective f32 camera with intrinsic parameters at most F <= 2^12 (F >= 1), a rotation of unit norm up to 1e-6, a centre with coordinates at most M <= 2^8 and a world origin whose depth T is at least (1 + M)/100 in magnitude: as_camera_matrix has only finite entries, each within 1e-4 F ((1 + M)/|T|)^2 of the exact camera matrix. At any point with coordinates at most M and depth Z of magnitude at least (1 + M)/100, linearize_at has only finite entries, each within 0.01 F (1 + M)^2 / |Z|^3 of the exact Jacobian; T does not enter this bound.",
  "all f32 cameras and points in the ranges, both branches of the sign flip",
  "in f32 the squares and reciprocals of depths come near overflow and most digits cancel; finiteness and accuracy over all cameras and points cannot be sampled",
  ["src/camera.rs: as_camera_matrix", "src/linearize.rs: JacobianPerspectiveCache::new, linearize_at"])
p("Orthographic f32 cameras, and triangulation in f32 with cameras of both kinds",
  "An orthographic f32 camera (rotation of unit norm up to 1e-6, centre with coordinates at most M, M >= 1, scales between 2^-20 and 2^20 pixels per unit, image centre standing for at most 10 M units): world_to_pixel of a point with coordinates at most M <= 2^26 is finite and within 5.4e-6 M s pixels of the exact projection, s being the scale of the axis; for M <= 2^20 a pixel at most 15 M s in magnitude comes back from pixel_to_world, point_on_ray, world_to_pixel finite and within 7e-4 M s. n >= 2 cameras of which some are of this kind and the others perspective cameras as in C99 (depth at least M/D, 1 <= D <= 300) see a point x: if every pixel is within sigma focal lengths (orthographic: sigma M s) of the exact projection, sigma <= 1/100, M <= 2^20, then pixel_to_world, to_single_ray, best_intersection_of_rays return Ok with a finite f32 point within rho + 6.4e-5 n/kappa (6 M + |x| + rho) of x, where kappa = 1 - |cos| - 13 sigma - 6e-4 D - 7.1e-6 n > 1.01e-7 for the directions in which some two cameras see the point (an orthographic camera: its optical axis), rho = (13 sigma + 3.3e-4) M sqrt(n/kappa). For pixels computed by world_to_pixel and D <= 50: within rho + 6.5e-5 n/kappa (6 M + |x| + rho), kappa = 1 - |cos| - D/350 - 7.1e-6 n, rho = 0.0026 D M sqrt(n/kappa).",
  "all f32 cameras of both kinds, points and pixels in the ranges; IEEE 754 arithmetic throughout, the decomposition computed in f64 by nalgebra's own SVD",
  "rounding errors over all scenes and all mixtures of cameras in single precision; a test covers one scene and usually uses f64",
  ["src/intrinsics_orthographic.rs: pixel_to_camera, camera_to_pixel", "src/camera.rs: pixel_to_world, world_to_pixel", "src/ray_intersection.rs: best_intersection_of_rays", "src/lib.rs: to_single_ray"])
p("Pixels of perspective cameras in f64 and f32, at any scale",
  "A perspective camera whose rotation quaternion is finite with squared norm within 1e-15 (f64) or 1e-6 (f32) of one, with fx, fy, skew, cx, cy at most F >= 1 in magnitude and all coordinates of its centre at most M >= 1. For a world point with coordinates at most M, exact depth Z and exact slopes X/Z, Y/Z at most s: world_to_pixel is finite and each coordinate is within 3.6e-14 F (s+1) M/|Z| (f64; M <= 2^500, F <= 2^400, |Z| >= 2e-14 M) or 2e-5 F (s+1) M/|Z| (f32; M <= 2^60, F <= 2^30, |Z| >= 1e-5 M) of the exact pinhole projection. For a pixel with coordinates at most F whose computed ray direction in the camera frame has coordinates at most S: pixel_to_world, point_on_ray, world_to_pixel return a finite pixel within 2.5e-13 F (S+1) (M+S) of it (f64; M+S <= 8e12, F <= 2^400, focal lengths at least 2^-100) or 1.5e-4 F (S+1) (M+S) (f32; M+S <= 13000, F <= 2^40, focal lengths at least 2^-20).",
  "all f64 and f32 perspective cameras, batches of points and pixels within the stated bounds",
  "the accuracy of a pixel depends on the scale of the scene, on the depth and on where the camera stands; a test covers one scene, usually a camera near the origin",
  ["src/camera.rs: pixel_to_world, world_to_pixel", "src/intrinsics_perspective.rs: pixel_to_camera, camera_to_pixel", "src/extrinsics.rs: world_to_camera, ray_camera_to_world", "src/lib.rs: point_on_ray"])
p("Two perspective cameras and one point",
  "The world points a perspective camera shows in a given pixel are exactly the points of the ray pixel_to_world assigns to that pixel, extended to a line, without the camera centre. Two pixels of two cameras, with rays that are not parallel and not along the line joining the camera centres, show a common point exactly if the two rays and that line are coplanar; and exactly then the point best_intersection_of_rays finds from the two rays (|cos| < 1 - 1e-7) is projected back to exactly these two pixels. If the first camera shows x in a pixel u, then a pixel of the second camera satisfies this condition together with u exactly if it lies on the straight line through the second camera's images of x and of the first camera's centre. Points the first camera shows in one pixel are always shown in one pixel by the second camera exactly if the two cameras have the same centre.",
  "all pairs of perspective cameras with nonzero focal lengths, any skew, all pixels and points (exact arithmetic)",
  "statements about all points, pixels and pairs of cameras; a test can only try some correspondences, and the converse directions (no common point, different centres) quantify over all points",
  ["src/camera.rs: pixel_to_world, world_to_pixel", "src/lib.rs: to_single_ray", "src/ray_intersection.rs: best_intersection_of_rays"])
p("Triangulating with f64 cameras placed by from_view",
  "Cameras placed by from_view in f64 from a camera centre, a point looked at and an up vector (30 to 150 degrees apart, coordinates up to M <= 2^20, focal lengths of 1 to 2^20 pixels) recover a point x seen by N >= 2 of them: if every pixel is within sigma <= 0.01 focal lengths of the image of x in the exact view, pixel_to_world, to_single_ray and best_intersection_of_rays return a finite point within rho + 1.7e-6 N / kappa (M + |x| + rho) of x, where theta is the angle at which two of the cameras see x, kappa = 1 - |cos theta| - 12 sigma - 1.5e-6 N > 1.01e-7 and rho = (12 sigma + 5.2e-11) M sqrt(N / kappa). For pixels computed by world_to_pixel with the same cameras the point is recovered within 1.8e-6 N / (1 - |cos theta| - 1.5e-6 N) (M + |x|). One such camera suffices if the distance is known: for x in front of the camera and a distance t at most 100 M, point_on_ray_at_distance gives a finite point within |t - |x - centre|| + (24 sigma + 1.02e-10) M of x.",
  "all f64 camera centres, points looked at, up vectors, intrinsic parameters and pixels in the ranges; x at a depth of at least M/50 with slopes up to 9; IEEE 754 arithmetic; any libm accurate on [-2, 2]",
  "the error of the computed rotation, of the rays and of the SVD accumulate over the whole chain; a test compares a few scenes, not every placement of the cameras",
  ["src/extrinsics.rs: from_view", "src/camera.rs: pixel_to_world, world_to_pixel", "src/ray_intersection.rs: best_intersection_of_rays"])
p("The axes of a floating-point camera placed by from_view",
  "A camera placed by from_view in f64 from finite arguments in range (up to 2^400, viewing direction and up vector at least 2^-10 long and 30 to 150 degrees apart) with camera centre coordinates up to M, 1 <= M <= 2e10, has finite axes: every coordinate of forward() is within 8.3e-12 M of the normalized direction from the camera to the point looked at, of right() within 8.3e-12 M of the normalized cross product of that direction with the up vector, of up() within 8.3e-12 M of the normalized part of the up vector perpendicular to it. In f32 (range 2^40, M <= 35): within 4.5e-3 M.",
  "all f64 / f32 arguments in the ranges; IEEE 754 arithmetic; any libm whose sine and cosine are finite and accurate on [-2, 2]",
  "the axes are computed as differences of nearby points, so their accuracy depends on where the camera is; a test compares a few cameras near the origin",
  ["src/extrinsics.rs: from_view, forward, right, up, lookdir"])
p("Triangulating with f32 cameras placed by from_view",
"Cameras placed by from_view in f32 from a camera centre, a point looked at and an up vector (30 to 150 degrees apart, coordinates up to M with 1 <= M <= 2^20, focal lengths of 1 to 2^20 pixels) recover a point x seen by N >= 2 of them: if every pixel is within sigma <= 0.01 focal lengths of the image of x in the exact view, pixel_to_world, to_single_ray and best_intersection_of_rays return a finite f32 point within rho + 6.5e-5 N / kappa (M + |x| + rho) of x, where theta is the angle at which two of the cameras see x, kappa = 1 - |cos theta| - 12 sigma - 0.001 - 7.1e-6 N > 1.01e-7 and rho = (12 sigma + 0.0023) M sqrt(N / kappa). One such camera suffices if the distance is known: for x in front of the camera and a distance t at most 10 M, point_on_ray_at_distance gives a finite point within |t - |x - centre|| + (24 sigma + 0.0034) M of x.",
"all f32 camera centres, points looked at, up vectors, intrinsic parameters and pixels in the ranges; x off the plane through each camera centre parallel to its image plane, with slopes up to 10; IEEE 754 arithmetic with the SVD in f64; any libm accurate on [-2, 2]",
"in f32 the rotation from from_view is wrong in its fifth digit, and how far this moves the triangulated point depends on the placement of every camera; a test compares a few scenes",
["src/extrinsics.rs: from_view", "src/camera.rs: pixel_to_world", "src/ray_intersection.rs: best_intersection_of_rays"])
p("Reprojecting triangulated points in f64 and f32",
"Take n >= 2 cameras and pixels as in C85 (f64) or C99 (f32), with coordinates up to M <= 2^19, and let delta be the bound stated there for the distance between the triangulated point and the true point x; assume delta <= M/100. Then in every camera that sees x at a depth z of at least 20 delta (f64: also at least M/50; f32: D <= 40) and with slopes up to 9, world_to_pixel of the triangulated point is finite and within sigma + 22 delta/z + 1.1e-10 (f32: 1.9e-4 D) focal lengths of the pixel that was given. More generally the pixel computed for any point within delta of x is within 22 delta/z + 1.1e-10 (f32: 1.9e-4 D) focal lengths of the exact image of x. For cameras placed by ExtrinsicParameters::from_view, with the cameras and pixels of C104 (f64) or C106 (f32), M <= 900, the eye, target and up vectors of C79, camera parameters up to F <= 2^20 and z >= M/500, the same holds with delta the bound of C104 or C106 and with 6e-11 (M/z) F pixels (f32: 0.023 (M/z) F) in place of the last term. With orthographic cameras among them, as in C88 (f64) or C101 (f32), the same holds with delta the bound stated there; an orthographic camera of scale s reprojects to within sigma M + 1.001 delta + 4e-14 M (f32: 6e-6 M) units, times s, of the pixel that was given.",
"all f64 and f32 cameras, pixels and points in the ranges; IEEE 754 arithmetic throughout, nalgebra's own SVD",
"the reprojection error is what users look at to judge a triangulation; how large it may be for good pixels depends on rounding in the whole chain and on every camera placement",
["src/camera.rs: pixel_to_world, world_to_pixel", "src/ray_intersection.rs: best_intersection_of_rays"])
p("Two orthographic cameras, or one of each kind, and one point",
"The world points an orthographic camera shows in a given pixel are exactly the points of the ray pixel_to_world assigns to that pixel, extended to a line; it runs along forward(). Two orthographic cameras with optical axes that are not parallel never show two different points in the same pair of pixels; two of their pixels show a common point exactly if the two rays are coplanar, and exactly then the point best_intersection_of_rays finds from the two rays (|cos| < 1 - 1e-7) is projected back to exactly these two pixels. If the first camera shows x in a pixel u, the pixels of the second camera satisfying this condition together with u form the straight line through its image of x in a direction that is the same for all u and x: that of the image of forward() of the first camera. Points the first camera shows in one pixel are always shown in one pixel by the second exactly if the optical axes are parallel. A pixel of a perspective camera and a pixel of an orthographic one, with rays that are not parallel and the second not passing through the perspective camera's centre, show a common point exactly if the rays are coplanar.",
"all pairs of orthographic cameras with nonzero scales and perspective cameras with nonzero focal lengths, all pixels and points (exact arithmetic)",
"statements about all points, pixels and pairs of cameras; a test can only try some correspondences, and the converse directions quantify over all points",
["src/intrinsics_orthographic.rs: pixel_to_camera, camera_to_pixel", "src/camera.rs: pixel_to_world, world_to_pixel", "src/ray_intersection.rs: best_intersection_of_rays"])
p("Two perspective images of a plane, and images of a camera that only turns",
"For two perspective cameras and a plane through neither camera centre there is one invertible 3x3 matrix H such that for every point of the plane that the first camera shows in a pixel (u, v), the second camera shows it in the pixel (u', v') exactly if H (u, v, 1) is a nonzero multiple of (u', v', 1). If the two cameras have the same centre, one such matrix serves all points; and only then.",
"all pairs of perspective cameras with nonzero focal lengths, any skew, all planes and points (exact arithmetic)",
"a statement about all points of a plane, and about the existence of one matrix for all of them; a test can only fit a matrix to some points",
["src/camera.rs: world_to_pixel", "src/intrinsics_perspective.rs: camera_to_pixel", "src/extrinsics.rs: world_to_camera, camcenter"])
p("Refining a point with the Jacobians of several cameras",
"For each camera let J be the matrix linearize_at returns at a point x. The matrix of the normal equations, the sum of all JᵀJ, is invertible exactly if the camera centres are not all on one line through x, and exactly then the pixels of x in all cameras determine x. The derivative of the sum of squared differences between world_to_pixel(x) and observed pixels is twice the sum of Jᵀr, with r the differences. If the observed pixels are those of a point x and the step from y to y + d solves the normal equations at y, the error measured as the sum of all |J v|² shrinks at least by the factor m², with m the largest relative difference between the depths of y and x in a camera; if all depths agree and the centres are not on one line through y, one step arrives at x. If the centres are not all on one line through x, then near x the normal equations are solvable, the distance to x after a step is at most a constant times its square before, and the iteration converges to x from every start near x.",
"all finite lists of perspective cameras with nonzero focal lengths whose image plane through the centre contains neither the point nor the world origin, all points and observed pixels (exact arithmetic)",
"statements about any number of cameras and about all points and pixels; invertibility and uniqueness are equivalences, and the convergence factor bounds every start of an iteration",
["src/linearize.rs: JacobianPerspectiveCache::new, linearize_at", "src/camera.rs: world_to_pixel", "src/extrinsics.rs: camcenter"])
p("Segments, visible regions and cross ratios",
"The image of the segment between two points in front of a perspective camera is exactly the segment between their two pixels; if one of the points is behind the camera, it is exactly the rest of the straight line through the two pixels (world_to_pixel does not clip). The part of space in front of the camera shown in a convex set of pixels, such as the image rectangle, is convex; the image of a convex body in front of the camera is convex. The cross ratio of four points on a line is that of their pixels. An orthographic camera maps weighted means to weighted means with the same weights, at any depth, and shows a convex part of space in a convex set of pixels.",
"all poses, parameters, points, convex sets of pixels and convex bodies (exact arithmetic)",
"equalities of infinite sets of points and pixels; a test can only sample points of a segment or region",
["src/camera.rs: world_to_pixel", "src/intrinsics_perspective.rs: camera_to_pixel", "src/intrinsics_orthographic.rs: camera_to_pixel"])
p("Pixels and directions",
"The ray pixel_to_world assigns to a pixel (u, v) of a perspective camera has the direction x*right - y*up + forward with y = (v - cy)/fy and x = (u - cx - skew*y)/fx, from which the angles between rays and with the optical axis follow. Every direction that makes an acute angle with forward() is, up to a positive factor, the direction of exactly one pixel. The ray of a pixel of an orthographic camera starts at camcenter + (u - cx)/sx*right - (v - cy)/sy*up and runs along forward(); every point of space is on the line of exactly one pixel.",
"all poses, all parameters with nonzero focal lengths or scales, all pixels, directions and points (exact arithmetic)",
"existence and uniqueness over all directions, points and pixels",
["src/camera.rs: pixel_to_world", "src/intrinsics_perspective.rs: pixel_to_camera", "src/intrinsics_orthographic.rs: pixel_to_camera", "src/extrinsics.rs: right, up, forward"])
p("Rectified stereo pairs",
"For two perspective cameras with the same parameters and axes, the second displaced by b to the right: a point has the same depth and the same image row in both cameras, and its columns differ by fx*b/depth. Two pixels in different columns show a common point exactly if their rows agree; it is the only one and its depth is fx*b divided by the difference of the columns. best_intersection_of_rays finds it (|cos| < 1 - 1e-7). If the difference of the columns is wrong by d, the depth is wrong by the product of the right and the wrong depth times d/(fx*b).",
"all such pairs of cameras with nonzero focal lengths and any skew, all points and pixels (exact arithmetic)",
"statements about all points and pixels, and uniqueness of the common point; a test can only try some disparities",
["src/camera.rs: world_to_pixel, pixel_to_world", "src/extrinsics.rs: world_to_camera, right", "src/ray_intersection.rs: best_intersection_of_rays"])
p("Any number of cameras of both kinds and one point",
"Take one pixel in each of any number of perspective and orthographic cameras. If some point is shown in all these pixels, it is the only one exactly if two of the rays pixel_to_world assigns to the pixels are not parallel. If two of the rays make an angle with |cos| < 1 - 1e-7, the pixels show a common point exactly if the point best_intersection_of_rays finds from the rays is projected back by world_to_pixel to all of the pixels, so a zero reprojection error decides whether pixels belong together.",
"all finite lists of cameras of both kinds with nonzero focal lengths or scales, all pixels (exact arithmetic)",
"equivalences about the existence and uniqueness of a point, for any number of cameras; a test can neither try all points nor all rigs",
["src/camera.rs: world_to_pixel, pixel_to_world", "src/ray_intersection.rs: best_intersection_of_rays", "src/intrinsics_perspective.rs", "src/intrinsics_orthographic.rs"])
p("Distance from a ray and difference of pixels",
"The distance of a point x with depth z from the ray pixel_to_world assigns to a pixel w of a perspective camera is at most |z|*g, and at least |z|*g divided by the length of the direction of the ray, where g is the difference between w and world_to_pixel(x) in units of the focal lengths (for skew 0: g^2 = (du/fx)^2 + (dv/fy)^2). For an orthographic camera the distance is exactly the difference of the pixels in units of the scales. Hence the point best_intersection_of_rays finds from pixels of any number of cameras of both kinds nearly minimizes the depth-weighted reprojection error: with each camera's squared term z^2*g^2 divided by the squared length of its ray direction, its sum is at most the sum of the squared terms of any other point.",
"all finite lists of cameras of both kinds with nonzero focal lengths or scales, any skew, all pixels and points outside the principal planes; two of the rays with |cos| < 1 - 1e-7 for the last part (exact arithmetic)",
"inequalities for all points, pixels and cameras, and a comparison of the result with every other point",
["src/ray_intersection.rs: best_intersection_of_rays", "src/camera.rs: world_to_pixel, pixel_to_world", "src/intrinsics_perspective.rs", "src/intrinsics_orthographic.rs"])
p("Area and orientation of triangles in images",
"Twice the signed area of the image of a triangle x, y, z in a perspective camera is fx*fy*(x - camcenter).n / (product of the three depths) with n = (y - x) x (z - x); it vanishes exactly if the camera centre is in the plane of the triangle or the triangle is degenerate. A triangle in front of the camera (fx*fy > 0) appears in its positive orientation exactly if n points away from the camera, so orientation in the image tells front faces from back faces, and images are never mirrored; two cameras see it in the same orientation exactly if their centres are on the same side of its plane. In an orthographic camera twice the signed area is sx*sy*forward.n, wherever camera and triangle are.",
"all poses, parameters and triangles with vertices outside the principal plane (exact arithmetic)",
"formulas and equivalences for all triangles and cameras; a test can only compare some triangles",
["src/camera.rs: world_to_pixel", "src/intrinsics_perspective.rs: camera_to_pixel", "src/intrinsics_orthographic.rs: camera_to_pixel", "src/extrinsics.rs: world_to_camera, forward"])
p("Orthographic cameras as limits of perspective cameras",
"Place a perspective camera with the axes of an orthographic one at the distance D behind it, with focal lengths D*sx, D*sy, the same principal point and no skew. Its pixel of a point lies on the line through the principal point and the orthographic pixel, at D/(D + z) times its distance, z being the depth of the point seen from the orthographic camera; for |z| <= r < D the coordinates differ by at most r/(D - r) of the distance from the principal point. For D to infinity the image of every point tends to the orthographic image.",
"all orthographic cameras, points and distances (exact arithmetic)",
"a limit and a bound for all points and distances; a test can only try some distances",
["src/camera.rs: world_to_pixel", "src/intrinsics_orthographic.rs: camera_to_pixel", "src/intrinsics_perspective.rs: camera_to_pixel", "src/extrinsics.rs: forward"])
p("Images of moving points and of moving cameras",
"If a point moves with constant velocity, its depth in a camera changes uniformly. If it moves towards or away from a perspective camera, its pixel stays on a straight line through the pixel of its direction of motion, at a distance from that pixel inversely proportional to the depth; the time to contact, after which the point is in the image plane through the centre, satisfies the usual formula and is determined by the two pixels and the pixel of the direction alone. If it moves parallel to the image plane, its pixel moves uniformly, by an amount inversely proportional to the depth. In an orthographic camera all points with the same velocity have the same uniform pixel motion. A camera that moves without turning sees a fixed point as the camera at rest sees the point moving in the opposite direction.",
"all poses, parameters, points, velocities and times at which the point is not in the image plane through the centre (exact arithmetic)",
"statements about all times of all motions; a test can only sample some frames of some motions",
["src/camera.rs: world_to_pixel", "src/extrinsics.rs: world_to_camera, camcenter, forward", "src/intrinsics_perspective.rs: camera_to_pixel", "src/intrinsics_orthographic.rs: camera_to_pixel"])
p("Resized, cropped, mirrored and rotated images",
"If the images of a camera are resized, cropped or mirrored, so that the pixel (u, v) becomes (a u + b, c v + d), the camera with the parameters a fx, c fy, a skew, a cx + b, c cy + d (orthographic: a sx, c sy, a cx + b, c cy + d) takes exactly the edited images: world_to_pixel returns the edited pixels, and pixel_to_world returns for edited pixels the same rays as before. Two cameras with the same camcenter() and the same forward() and square pixels without skew see every point at the same depth, and their images differ by one rotation about the principal point (cx, cy); the same holds for orthographic cameras with equal scales.",
"all poses, parameters, points, pixels and nonzero factors; for perspective projection, points not in the image plane through the centre (exact arithmetic)",
"equalities for all points, pixels and edits, including equality of the returned ray bundles; the rotation is one and the same for all points",
["src/camera.rs: world_to_pixel, pixel_to_world", "src/intrinsics_perspective.rs: PerspectiveParams, camera_to_pixel, pixel_to_camera", "src/intrinsics_orthographic.rs: OrthographicParams, camera_to_pixel, pixel_to_camera", "src/extrinsics.rs: forward, camcenter"])
p("Images of balls",
"A ball is completely in front of a camera exactly if the depth of its centre exceeds the radius. The image of such a ball in a perspective camera is exactly the set of pixels whose rays (pixel_to_world) pass the centre of the ball at a distance of at most the radius, that is ((x - c).(x - c) - r²) d.d <= ((x - c).d)² with x the centre of the ball, c = camcenter() and d the direction of the ray. The image of a ball in an orthographic camera is exactly the filled ellipse with half axes |sx| r and |sy| r around the pixel of the centre of the ball.",
"all poses, nonzero focal lengths or scales, all balls (perspective: in front of the camera) and all pixels (exact arithmetic)",
"equalities of infinite sets of pixels; a test can only sample points of a ball",
["src/camera.rs: world_to_pixel, pixel_to_world", "src/extrinsics.rs: camcenter, forward", "src/intrinsics_perspective.rs: camera_to_pixel, pixel_to_camera", "src/intrinsics_orthographic.rs: camera_to_pixel"])
open('/verif/properties.jsonl','w').write("".join(json.dumps(x)+"\n" for x in P))
print(len(P))

import Verif.Model.Scalar
import Mathlib.Data.Fin.VecNotation

/-!
# The part of nalgebra used by cam-geom

`nalgebra` is a dependency (`/repo/Cargo.toml:22`), its source is not in `/repo`.  The elementary
operations below follow its documented definitions; each definition cites the lines of `/repo` that
call it.  QR, SVD and rotation-matrix-to-quaternion are parameters (`Linalg`).

Simplification common to all matrix products: the order in which the (3 or 4) products of a dot
product are added is fixed to left-to-right.
-/

namespace CamGeom

/-- `nalgebra::Matrix<R, m, n, _>`; used by every file of `/repo/src`.  Static dimensions and the
run-time dimension `Dyn` are both the natural number `m`; storage is irrelevant. -/
abbrev Mat (m n : ℕ) (R : Type) := Fin m → Fin n → R

/-- `Vector3<R>` and the `coords` of `Point3<R>` (`/repo/src/extrinsics.rs:1,7`). -/
abbrev V3 (R : Type) := Fin 3 → R

section loops

/-- `for i in 0..n { body }` with mutable state, e.g. `/repo/src/extrinsics.rs:207`. -/
def forRange {S : Type} (n : ℕ) (init : S) (body : Fin n → S → S) : S :=
  (List.finRange n).foldl (fun s i => body i s) init

/-- Indexed assignment `m[(i, j)] = v`, e.g. `/repo/src/extrinsics.rs:214`. -/
def Mat.set {R : Type} {m n : ℕ} (a : Mat m n R) (i : Fin m) (j : Fin n) (v : R) : Mat m n R :=
  fun i' j' => if i' = i ∧ j' = j then v else a i' j'

/-- `OMatrix::zeros_generic(rows, cols)`, e.g. `/repo/src/extrinsics.rs:198`. -/
def Mat.zeros {R : Type} [Scalar R] (m n : ℕ) : Mat m n R := fun _ _ => 0

end loops

variable {R : Type} [Scalar R]

/-- Component-wise operators on `Vector3`/`Matrix`: negation (`/repo/src/extrinsics.rs:60,105`). -/
def V3.neg (a : V3 R) : V3 R := fun i => - a i
/-- `a + b` on vectors (`transform_point`, `/repo/src/extrinsics.rs:208`). -/
def V3.add (a b : V3 R) : V3 R := fun i => a i + b i
/-- `a - b` on vectors (`/repo/src/extrinsics.rs:112,184`). -/
def V3.sub (a b : V3 R) : V3 R := fun i => a i - b i
/-- `a * s` for a scalar `s` (quaternion rotation, `from_axis_angle`). -/
def V3.scale (a : V3 R) (s : R) : V3 R := fun i => a i * s

/-- `Vector3::cross`, used by `face_towards` and quaternion rotation (`/repo/src/extrinsics.rs:114`). -/
def V3.cross (a b : V3 R) : V3 R :=
  ![a 1 * b 2 - a 2 * b 1, a 2 * b 0 - a 0 * b 2, a 0 * b 1 - a 1 * b 0]

/-- `norm_squared` of a vector. -/
def V3.normSq (a : V3 R) : R := a 0 * a 0 + a 1 * a 1 + a 2 * a 2

/-- `norm` of a vector. -/
def V3.norm (a : V3 R) : R := Scalar.sqrt (V3.normSq a)

/-- `Unit::new_normalize(v)` and `v.normalize()`: divide each component by the norm
(`/repo/src/extrinsics.rs:113,185`, `/repo/src/ray_intersection.rs:69`). -/
def V3.normalize (a : V3 R) : V3 R := fun i => a i / V3.norm a

/-- Product of a 3-column matrix and a vector (`/repo/src/extrinsics.rs:60,105`). -/
def Mat.mulVec3 {m : ℕ} (a : Mat m 3 R) (v : V3 R) : Fin m → R :=
  fun i => a i 0 * v 0 + a i 1 * v 1 + a i 2 * v 2

/-- Product of a 4-column matrix and a homogeneous vector (`/repo/src/intrinsics_perspective.rs:252`). -/
def Mat.mulVec4 {m : ℕ} (a : Mat m 4 R) (v : Fin 4 → R) : Fin m → R :=
  fun i => a i 0 * v 0 + a i 1 * v 1 + a i 2 * v 2 + a i 3 * v 3

/-- Matrix product with inner dimension 3 (`/repo/src/camera.rs:187,236,242,243`,
`/repo/src/linearize.rs:18`). -/
def Mat.mul3 {m n : ℕ} (a : Mat m 3 R) (b : Mat 3 n R) : Mat m n R :=
  fun i j => a i 0 * b 0 j + a i 1 * b 1 j + a i 2 * b 2 j

/-- `m.transpose()` (`/repo/src/camera.rs:239,242,243`). -/
def Mat.transpose' {R : Type} {m n : ℕ} (a : Mat m n R) : Mat n m R := fun i j => a j i

/-- `-m` (`/repo/src/camera.rs:192,271,279`, `/repo/src/linearize.rs:22`). -/
def Mat.neg {m n : ℕ} (a : Mat m n R) : Mat m n R := fun i j => - a i j

/-- `m * s` for a scalar `s` (`/repo/src/camera.rs:167`). -/
def Mat.scale {m n : ℕ} (a : Mat m n R) (s : R) : Mat m n R := fun i j => a i j * s

/-- `m / s` for a scalar `s` (`/repo/src/camera.rs:197`, `/repo/src/linearize.rs:24`). -/
def Mat.divScalar {m n : ℕ} (a : Mat m n R) (s : R) : Mat m n R := fun i j => a i j / s

/-- `determinant()` of a 3x3 matrix: nalgebra expands along the first row with the three 2x2 minors
(`/repo/src/camera.rs:273,293-296`). -/
def Mat.det3 (m : Mat 3 3 R) : R :=
  let minor_m12_m23 := m 1 1 * m 2 2 - m 2 1 * m 1 2
  let minor_m11_m23 := m 1 0 * m 2 2 - m 2 0 * m 1 2
  let minor_m11_m22 := m 1 0 * m 2 1 - m 2 0 * m 1 1
  m 0 0 * minor_m12_m23 - m 0 1 * minor_m11_m23 + m 0 2 * minor_m11_m22

/-- `m.remove_column(c)` of a 3x4 matrix (`/repo/src/camera.rs:160,293-296`). -/
def Mat.removeColumn {R : Type} (p : Mat 3 4 R) (c : Fin 4) : Mat 3 3 R :=
  fun i j => p i (c.succAbove j)

/-- `Point3::to_homogeneous()` (`/repo/src/intrinsics_perspective.rs:251`). -/
def V3.toHomogeneous (p : V3 R) : Fin 4 → R := ![p 0, p 1, p 2, 1]

/-- A quaternion `w + i·I + j·J + k·K`; also `UnitQuaternion<R>` (whose unit norm is a property,
not part of the type) (`/repo/src/extrinsics.rs:21`). -/
@[ext] structure Quat (R : Type) where
  w : R
  i : R
  j : R
  k : R

/-- Vector (imaginary) part of a quaternion. -/
def Quat.vector {R : Type} (q : Quat R) : V3 R := ![q.i, q.j, q.k]

/-- Quaternion product, `q * q2` (`/repo/src/extrinsics.rs:118`). -/
def Quat.mul (a b : Quat R) : Quat R where
  w := a.w * b.w - a.i * b.i - a.j * b.j - a.k * b.k
  i := a.w * b.i + a.i * b.w + a.j * b.k - a.k * b.j
  j := a.w * b.j - a.i * b.k + a.j * b.w + a.k * b.i
  k := a.w * b.k + a.i * b.j - a.j * b.i + a.k * b.w

/-- `UnitQuaternion::inverse()`: the conjugate (`/repo/src/extrinsics.rs:104`). -/
def Quat.inverse (q : Quat R) : Quat R := ⟨q.w, -q.i, -q.j, -q.k⟩

/-- `UnitQuaternion * Vector3` / `transform_vector`:
`t = 2·(v × rhs)`, result `t·w + v × t + rhs` (used by every `transform_point`/`transform_vector`
call, e.g. `/repo/src/extrinsics.rs:208`, `/repo/src/ray_bundle_types.rs:170`). -/
def Quat.rotate (q : Quat R) (v : V3 R) : V3 R :=
  let t := V3.scale (V3.cross q.vector v) (Scalar.lit 2)
  let c := V3.cross q.vector t
  V3.add (V3.add (V3.scale t q.w) c) v

/-- `UnitQuaternion::to_rotation_matrix()` (`/repo/src/extrinsics.rs:59,104`). -/
def Quat.toRotationMatrix (q : Quat R) : Mat 3 3 R :=
  let two : R := Scalar.lit 2
  let ww := q.w * q.w
  let ii := q.i * q.i
  let jj := q.j * q.j
  let kk := q.k * q.k
  let ij := q.i * q.j * two
  let wk := q.w * q.k * two
  let wj := q.w * q.j * two
  let ik := q.i * q.k * two
  let jk := q.j * q.k * two
  let wi := q.w * q.i * two
  ![![ww + ii - jj - kk, ij - wk, wj + ik],
    ![wk + ij, ww - ii + jj - kk, jk - wi],
    ![ik - wj, wi + jk, ww - ii - jj + kk]]

/-- `UnitQuaternion::from_axis_angle(axis, angle)` (`/repo/src/extrinsics.rs:117`). -/
def Quat.fromAxisAngle (axis : V3 R) (angle : R) : Quat R :=
  let half := angle / Scalar.lit 2
  let sang := Scalar.sin half
  let cang := Scalar.cos half
  ⟨cang, axis 0 * sang, axis 1 * sang, axis 2 * sang⟩

/-- `Isometry3<R>`: rotation followed by translation (`/repo/src/extrinsics.rs:76`). -/
@[ext] structure Isometry (R : Type) where
  translation : V3 R
  rotation : Quat R

/-- `Isometry3::transform_point` (`/repo/src/extrinsics.rs:184,208,255`). -/
def Isometry.transformPoint (p : Isometry R) (v : V3 R) : V3 R :=
  V3.add (p.rotation.rotate v) p.translation

/-- `Isometry3::transform_vector`: rotation only (`/repo/src/ray_bundle_types.rs:170,329`). -/
def Isometry.transformVector (p : Isometry R) (v : V3 R) : V3 R := p.rotation.rotate v

/-- `Isometry3::inverse()`: inverse rotation, and the inverse rotation of the negated translation
(`/repo/src/extrinsics.rs:82`). -/
def Isometry.inverse (p : Isometry R) : Isometry R where
  translation := p.rotation.inverse.rotate (V3.neg p.translation)
  rotation := p.rotation.inverse

/-- `nalgebra::linalg::SVD` of a 3x3 matrix; `u` and `v_t` are present iff they were requested
(`/repo/src/ray_intersection.rs:178`). -/
structure SVD (F : Type) where
  u : Option (Mat 3 3 F)
  vT : Option (Mat 3 3 F)
  singularValues : V3 F

/-- `SVD::recompose()`: `U · diag(σ) · Vᵀ`, an error if `u` or `v_t` was not computed
(called by `pseudo_inverse`). -/
def SVD.recompose {F : Type} [Scalar F] (d : SVD F) : Except String (Mat 3 3 F) :=
  match d.u, d.vT with
  | some u, some vT =>
      .ok (Mat.mul3 (fun i j => u i j * d.singularValues j) vT)
  | none, none => .error "SVD recomposition: U and V^t have not been computed."
  | none, _ => .error "SVD recomposition: U has not been computed."
  | _, none => .error "SVD recomposition: V^t has not been computed."

/-- `SVD::pseudo_inverse(eps)`: invert singular values greater than `eps`, zero the others,
recompose and transpose; an error for negative `eps` (`/repo/src/ray_intersection.rs:180`). -/
def SVD.pseudoInverse {F : Type} [Scalar F] (d : SVD F) (eps : F) : Except String (Mat 3 3 F) :=
  if Scalar.lt eps 0 then
    .error "SVD pseudo inverse: the epsilon must be non-negative."
  else do
    let s := forRange 3 d.singularValues fun i s =>
      let val := s i
      if Scalar.lt eps val then Function.update s i (1 / val) else Function.update s i 0
    let m ← SVD.recompose { d with singularValues := s }
    pure (Mat.transpose' m)

/-- The nalgebra routines kept as parameters of the model:

* `qr a = (Q, R)` models `nalgebra::linalg::QR::new(a)` followed by `.q()` and `.r()`
  (`/repo/src/camera.rs:239-240`);
* `fromRotationMatrix` models `UnitQuaternion::from_rotation_matrix` (`/repo/src/camera.rs:276,281`;
  also inside `look_at_lh`, `/repo/src/extrinsics.rs:114`). -/
structure Linalg (R : Type) where
  qr : Mat 3 3 R → Mat 3 3 R × Mat 3 3 R
  fromRotationMatrix : Mat 3 3 R → Quat R

/-- `SVD::try_new(m, compute_u, compute_v, eps, max_niter)` as a parameter
(`/repo/src/ray_intersection.rs:178`); `none` when it does not converge. -/
abbrev TrySvd (F : Type) := Mat 3 3 F → Bool → Bool → F → ℕ → Option (SVD F)

/-- `Rotation3::face_towards(dir, up)`: columns are the x axis `up × dir`, the y axis and the z axis
`dir` (used by `look_at_lh`, `/repo/src/extrinsics.rs:114`).  Some nalgebra versions normalize the
y axis once more, which is the identity in exact arithmetic. -/
def faceTowardsMatrix (dir up : V3 R) : Mat 3 3 R :=
  let zaxis := V3.normalize dir
  let xaxis := V3.normalize (V3.cross up zaxis)
  let yaxis := V3.cross zaxis xaxis
  ![![xaxis 0, yaxis 0, zaxis 0],
    ![xaxis 1, yaxis 1, zaxis 1],
    ![xaxis 2, yaxis 2, zaxis 2]]

/-- `UnitQuaternion::look_at_lh(dir, up)`: inverse of `face_towards(dir, up)`
(`/repo/src/extrinsics.rs:114`). -/
def lookAtLh (na : Linalg R) (dir up : V3 R) : Quat R :=
  (na.fromRotationMatrix (faceTowardsMatrix dir up)).inverse

end CamGeom

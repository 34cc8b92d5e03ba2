import Verif.Model.RayBundleTypes

/-!
# `/repo/src/intrinsics_perspective.rs` and `/repo/src/intrinsics_orthographic.rs`
-/

namespace CamGeom

variable {R : Type} [Scalar R]

/-- `struct PerspectiveParams` (`/repo/src/intrinsics_perspective.rs:52-63`). -/
@[ext] structure PerspectiveParams (R : Type) where
  fx : R
  fy : R
  skew : R
  cx : R
  cy : R

/-- `struct IntrinsicParametersPerspective` (`/repo/src/intrinsics_perspective.rs:84-88`). -/
@[ext] structure IntrinsicParametersPerspective (R : Type) where
  params : PerspectiveParams R
  cacheP : Mat 3 4 R

/-- `From<PerspectiveParams>` (`/repo/src/intrinsics_perspective.rs:65-76`). -/
def IntrinsicParametersPerspective.ofParams (params : PerspectiveParams R) :
    IntrinsicParametersPerspective R :=
  let c : ℚ → R := Scalar.lit
  { params
    cacheP := ![![params.fx, params.skew, params.cx, c 0],
                ![c 0, params.fy, params.cy, c 0],
                ![c 0, c 0, c 1, c 0]] }

/-- `approx::relative_ne!(a, b)` with `epsilon = max_relative = eps`, the scalar type's defaults
(`/repo/src/intrinsics_perspective.rs:103-127`; the macro is in the `approx` crate). -/
def relativeNe (eps a b : R) : Bool :=
  !(if Scalar.beq a b then true
    else if Scalar.isInf a || Scalar.isInf b then false
    else
      let absDiff := Scalar.abs (a - b)
      if Scalar.le absDiff eps then true
      else
        let absA := Scalar.abs a
        let absB := Scalar.abs b
        let largest := if Scalar.lt absA absB then absB else absA
        Scalar.le absDiff (largest * eps))

/-- `from_normalized_3x4_matrix` (`/repo/src/intrinsics_perspective.rs:95-132`).  `eps` stands for
`R::default_epsilon()` and `R::default_max_relative()`, which coincide for `f32` and `f64`. -/
def IntrinsicParametersPerspective.fromNormalized3x4Matrix (eps : R) (p : Mat 3 4 R) :
    Except Error (IntrinsicParametersPerspective R) := do
  let params : PerspectiveParams R :=
    { fx := p 0 0, fy := p 1 1, skew := p 0 1, cx := p 0 2, cy := p 1 2 }
  if relativeNe eps (p 0 3) (Scalar.lit 0) then throw .invalidInput
  if relativeNe eps (p 1 0) (Scalar.lit 0) then throw .invalidInput
  if relativeNe eps (p 1 3) (Scalar.lit 0) then throw .invalidInput
  if relativeNe eps (p 2 0) (Scalar.lit 0) then throw .invalidInput
  if relativeNe eps (p 2 1) (Scalar.lit 0) then throw .invalidInput
  if relativeNe eps (p 2 2) (Scalar.lit 1) then throw .invalidInput
  if relativeNe eps (p 2 3) (Scalar.lit 0) then throw .invalidInput
  return IntrinsicParametersPerspective.ofParams params

namespace IntrinsicParametersPerspective

/-- `fx()` (`/repo/src/intrinsics_perspective.rs:136`). -/
def fx {R : Type} (c : IntrinsicParametersPerspective R) : R := c.params.fx
/-- `fy()` (`/repo/src/intrinsics_perspective.rs:142`). -/
def fy {R : Type} (c : IntrinsicParametersPerspective R) : R := c.params.fy
/-- `skew()` (`/repo/src/intrinsics_perspective.rs:148`). -/
def skew {R : Type} (c : IntrinsicParametersPerspective R) : R := c.params.skew
/-- `cx()` (`/repo/src/intrinsics_perspective.rs:154`). -/
def cx {R : Type} (c : IntrinsicParametersPerspective R) : R := c.params.cx
/-- `cy()` (`/repo/src/intrinsics_perspective.rs:160`). -/
def cy {R : Type} (c : IntrinsicParametersPerspective R) : R := c.params.cy

/-- `as_intrinsics_matrix`: the 3x3 view of `cache_p` (`/repo/src/intrinsics_perspective.rs:172-180`). -/
def asIntrinsicsMatrix {R : Type} (c : IntrinsicParametersPerspective R) : Mat 3 3 R :=
  fun i j => c.cacheP i j.castSucc

/-- `pixel_to_camera` (`/repo/src/intrinsics_perspective.rs:189-225`). -/
def pixelToCamera {n : ℕ} (c : IntrinsicParametersPerspective R) (pixels : Pixels R n) :
    RayBundle CameraFrame (SharedOriginRayBundle R) R n :=
  let one : R := Scalar.lit 1
  let result : RayBundle CameraFrame (SharedOriginRayBundle R) R n :=
    RayBundle.newSharedZeroOrigin (Mat.zeros n 3)
  { result with data := forRange n result.data fun i camDir =>
      let u := pixels.data i 0
      let v := pixels.data i 1
      let y := (v - c.params.cy) / c.params.fy
      let camDir := camDir.set i 0 ((u - c.params.skew * y - c.params.cx) / c.params.fx)
      let camDir := camDir.set i 1 y
      camDir.set i 2 one }

/-- `camera_to_pixel` (`/repo/src/intrinsics_perspective.rs:227-257`). -/
def cameraToPixel {n : ℕ} (c : IntrinsicParametersPerspective R) (camera : Points CameraFrame R n) :
    Pixels R n :=
  { data := forRange n (Mat.zeros n 2) fun i result =>
      let x := V3.toHomogeneous ![camera.data i 0, camera.data i 1, camera.data i 2]
      let rst := Mat.mulVec4 c.cacheP x
      let result := result.set i 0 (rst 0 / rst 2)
      result.set i 1 (rst 1 / rst 2) }

/-- `impl IntrinsicParameters<R> for IntrinsicParametersPerspective<R>`
(`/repo/src/intrinsics_perspective.rs:183-258`). -/
instance : IntrinsicParameters R (IntrinsicParametersPerspective R) where
  BundleType := SharedOriginRayBundle R
  pixelToCamera := pixelToCamera
  cameraToPixel := cameraToPixel

end IntrinsicParametersPerspective

/-- `struct OrthographicParams` (`/repo/src/intrinsics_orthographic.rs:45-54`). -/
@[ext] structure OrthographicParams (R : Type) where
  sx : R
  sy : R
  cx : R
  cy : R

/-- `struct IntrinsicParametersOrthographic` (`/repo/src/intrinsics_orthographic.rs:69-71`). -/
@[ext] structure IntrinsicParametersOrthographic (R : Type) where
  params : OrthographicParams R

namespace IntrinsicParametersOrthographic

/-- `From<OrthographicParams>` (`/repo/src/intrinsics_orthographic.rs:56-61`). -/
def ofParams {R : Type} (params : OrthographicParams R) : IntrinsicParametersOrthographic R :=
  { params }

/-- `pixel_to_camera` (`/repo/src/intrinsics_orthographic.rs:79-115`). -/
def pixelToCamera {n : ℕ} (c : IntrinsicParametersOrthographic R) (pixels : Pixels R n) :
    RayBundle CameraFrame (SharedDirectionRayBundle R) R n :=
  let zero : R := Scalar.lit 0
  let result : RayBundle CameraFrame (SharedDirectionRayBundle R) R n :=
    RayBundle.newSharedPluszDirection (Mat.zeros n 3)
  { result with data := forRange n result.data fun i origin =>
      let u := pixels.data i 0
      let v := pixels.data i 1
      let x := (u - c.params.cx) / c.params.sx
      let y := (v - c.params.cy) / c.params.sy
      let origin := origin.set i 0 x
      let origin := origin.set i 1 y
      origin.set i 2 zero }

/-- `camera_to_pixel` (`/repo/src/intrinsics_orthographic.rs:117-142`). -/
def cameraToPixel {n : ℕ} (c : IntrinsicParametersOrthographic R) (camera : Points CameraFrame R n) :
    Pixels R n :=
  { data := forRange n (Mat.zeros n 2) fun i result =>
      let result := result.set i 0 (camera.data i 0 * c.params.sx + c.params.cx)
      result.set i 1 (camera.data i 1 * c.params.sy + c.params.cy) }

/-- `impl IntrinsicParameters<R> for IntrinsicParametersOrthographic<R>`
(`/repo/src/intrinsics_orthographic.rs:73-143`). -/
instance : IntrinsicParameters R (IntrinsicParametersOrthographic R) where
  BundleType := SharedDirectionRayBundle R
  pixelToCamera := pixelToCamera
  cameraToPixel := cameraToPixel

end IntrinsicParametersOrthographic

end CamGeom

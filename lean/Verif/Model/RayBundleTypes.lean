import Verif.Model.Types

/-!
# `/repo/src/ray_bundle_types.rs`
-/

namespace CamGeom

/-- `struct SharedOriginRayBundle` (`/repo/src/ray_bundle_types.rs:11-13`). -/
@[ext] structure SharedOriginRayBundle (R : Type) where
  center : V3 R

/-- `struct SharedDirectionRayBundle` (`/repo/src/ray_bundle_types.rs:184-186`). -/
@[ext] structure SharedDirectionRayBundle (R : Type) where
  direction : V3 R

variable {R : Type} [Scalar R]

/-- Row `i` of an `n x 3` matrix as a vector (`self_data.row(i).transpose()`,
`/repo/src/ray_bundle_types.rs:169,334`). -/
def Mat.row {R : Type} {m n : ℕ} (a : Mat m n R) (i : Fin m) : Fin n → R := fun j => a i j

namespace SharedOriginRayBundle

/-- `new_shared_zero_origin` (`/repo/src/ray_bundle_types.rs:21-27`). -/
def newSharedZeroOrigin : SharedOriginRayBundle R :=
  let zero : R := Scalar.lit 0
  { center := ![zero, zero, zero] }

/-- `to_single_ray` (`/repo/src/ray_bundle_types.rs:35-44`). -/
def toSingleRay {R Coords : Type} (b : SharedOriginRayBundle R) (data : Mat 1 3 R) : Ray Coords R :=
  { direction := fun j => data 0 j, center := b.center }

/-- `directions` (`/repo/src/ray_bundle_types.rs:46-63`). -/
def directions {n : ℕ} (_b : SharedOriginRayBundle R) (data : Mat n 3 R) : Mat n 3 R :=
  forRange n (Mat.zeros n 3) fun i result =>
    forRange 3 result fun j result => result.set i j (data i j)

/-- `centers` (`/repo/src/ray_bundle_types.rs:65-82`). -/
def centers {n : ℕ} (b : SharedOriginRayBundle R) (_data : Mat n 3 R) : Mat n 3 R :=
  forRange n (Mat.zeros n 3) fun i result =>
    forRange 3 result fun j result => result.set i j (b.center j)

/-- `point_on_ray` (`/repo/src/ray_bundle_types.rs:84-110`). -/
def pointOnRay {Coords : Type} {n : ℕ} (b : SharedOriginRayBundle R) (dirs : Mat n 3 R) :
    Points Coords R n :=
  let center : V3 R := ![b.center 0, b.center 1, b.center 2]
  { data := forRange n (Mat.zeros n 3) fun i result =>
      forRange 3 result fun j result => result.set i j (center j + dirs i j) }

/-- `point_on_ray_at_distance` (`/repo/src/ray_bundle_types.rs:112-146`). -/
def pointOnRayAtDistance {Coords : Type} {n : ℕ} (b : SharedOriginRayBundle R) (dirs : Mat n 3 R)
    (distance : R) : Points Coords R n :=
  let center : V3 R := ![b.center 0, b.center 1, b.center 2]
  { data := forRange n (Mat.zeros n 3) fun i result =>
      let dx := dirs i 0
      let dy := dirs i 1
      let dz := dirs i 2
      let mag2 := dx * dx + dy * dy + dz * dz
      let mag := Scalar.sqrt mag2
      let scale := distance / mag
      forRange 3 result fun j result => result.set i j (center j + scale * dirs i j) }

/-- `to_pose` (`/repo/src/ray_bundle_types.rs:148-178`).  The placeholder bundle type assigned at
line 159 is overwritten at line 176 as in the code. -/
def toPose {OutFrame : Type} {n : ℕ} (b : SharedOriginRayBundle R) (pose : Isometry R)
    (data : Mat n 3 R) : RayBundle OutFrame (SharedOriginRayBundle R) R n :=
  let reposed : RayBundle OutFrame (SharedOriginRayBundle R) R n :=
    { bundleType := newSharedZeroOrigin, data := Mat.zeros n 3 }
  let newCenter := pose.transformPoint b.center
  let reposedData := forRange n reposed.data fun i d =>
    let origVec := Mat.row data i
    let newVec := pose.transformVector origVec
    forRange 3 d fun j d => d.set i j (newVec j)
  let reposed : RayBundle OutFrame (SharedOriginRayBundle R) R n :=
    { reposed with data := reposedData }
  { reposed with bundleType := { center := newCenter } }

/-- `impl Bundle<R> for SharedOriginRayBundle<R>` (`/repo/src/ray_bundle_types.rs:30-179`). -/
instance : Bundle R (SharedOriginRayBundle R) where
  toSingleRay := toSingleRay
  directions := directions
  centers := centers
  pointOnRay := pointOnRay
  pointOnRayAtDistance := pointOnRayAtDistance
  toPose := toPose

end SharedOriginRayBundle

namespace SharedDirectionRayBundle

/-- `new_plusz_shared_direction` (`/repo/src/ray_bundle_types.rs:190-195`). -/
def newPluszSharedDirection : SharedDirectionRayBundle R :=
  { direction := ![0, 0, 1] }

/-- `to_single_ray` (`/repo/src/ray_bundle_types.rs:199-208`). -/
def toSingleRay {R Coords : Type} (b : SharedDirectionRayBundle R) (data : Mat 1 3 R) :
    Ray Coords R :=
  { direction := b.direction, center := fun j => data 0 j }

/-- `directions` (`/repo/src/ray_bundle_types.rs:210-227`). -/
def directions {n : ℕ} (b : SharedDirectionRayBundle R) (_data : Mat n 3 R) : Mat n 3 R :=
  forRange n (Mat.zeros n 3) fun i result =>
    forRange 3 result fun j result => result.set i j (b.direction j)

/-- `centers` (`/repo/src/ray_bundle_types.rs:229-246`). -/
def centers {n : ℕ} (_b : SharedDirectionRayBundle R) (data : Mat n 3 R) : Mat n 3 R :=
  forRange n (Mat.zeros n 3) fun i result =>
    forRange 3 result fun j result => result.set i j (data i j)

/-- `point_on_ray` (`/repo/src/ray_bundle_types.rs:248-274`). -/
def pointOnRay {Coords : Type} {n : ℕ} (b : SharedDirectionRayBundle R) (cs : Mat n 3 R) :
    Points Coords R n :=
  let direction : V3 R := ![b.direction 0, b.direction 1, b.direction 2]
  { data := forRange n (Mat.zeros n 3) fun i result =>
      forRange 3 result fun j result => result.set i j (direction j + cs i j) }

/-- `point_on_ray_at_distance` (`/repo/src/ray_bundle_types.rs:276-308`). -/
def pointOnRayAtDistance {Coords : Type} {n : ℕ} (b : SharedDirectionRayBundle R) (cs : Mat n 3 R)
    (distance : R) : Points Coords R n :=
  let d := b.direction
  let dx := d 0
  let dy := d 1
  let dz := d 2
  let mag2 := dx * dx + dy * dy + dz * dz
  let mag := Scalar.sqrt mag2
  let scale := distance / mag
  let distDir : V3 R := ![scale * dx, scale * dy, scale * dz]
  { data := forRange n (Mat.zeros n 3) fun i result =>
      forRange 3 result fun j result => result.set i j (distDir j + cs i j) }

/-- `to_pose` (`/repo/src/ray_bundle_types.rs:310-346`). -/
def toPose {OutFrame : Type} {n : ℕ} (b : SharedDirectionRayBundle R) (pose : Isometry R)
    (data : Mat n 3 R) : RayBundle OutFrame (SharedDirectionRayBundle R) R n :=
  let reposed : RayBundle OutFrame (SharedDirectionRayBundle R) R n :=
    { bundleType := newPluszSharedDirection, data := Mat.zeros n 3 }
  let newDirection := pose.transformVector b.direction
  let reposedData := forRange n reposed.data fun i d =>
    let origPoint := Mat.row data i
    let newPoint := pose.transformPoint origPoint
    forRange 3 d fun j d => d.set i j (newPoint j)
  let reposed : RayBundle OutFrame (SharedDirectionRayBundle R) R n :=
    { reposed with data := reposedData }
  { reposed with bundleType := { direction := newDirection } }

/-- `impl Bundle<R> for SharedDirectionRayBundle<R>` (`/repo/src/ray_bundle_types.rs:198-347`). -/
instance : Bundle R (SharedDirectionRayBundle R) where
  toSingleRay := toSingleRay
  directions := directions
  centers := centers
  pointOnRay := pointOnRay
  pointOnRayAtDistance := pointOnRayAtDistance
  toPose := toPose

end SharedDirectionRayBundle

/-- `RayBundle::new_shared_zero_origin` (`/repo/src/lib.rs:324-327`). -/
def RayBundle.newSharedZeroOrigin {Coords : Type} {n : ℕ} (data : Mat n 3 R) :
    RayBundle Coords (SharedOriginRayBundle R) R n :=
  { bundleType := SharedOriginRayBundle.newSharedZeroOrigin, data }

/-- `RayBundle::new_shared_plusz_direction` (`/repo/src/lib.rs:349-353`). -/
def RayBundle.newSharedPluszDirection {Coords : Type} {n : ℕ} (data : Mat n 3 R) :
    RayBundle Coords (SharedDirectionRayBundle R) R n :=
  { bundleType := SharedDirectionRayBundle.newPluszSharedDirection, data }

end CamGeom

import Verif.Model.Types

/-!
# `/repo/src/ray_intersection.rs`

`R` is the generic scalar, `F` models `f64`.
-/

namespace CamGeom

/-- Sequencing of outcomes (`?` and `unwrap`). -/
def Outcome.bind {α β : Type} (x : Outcome α) (f : α → Outcome β) : Outcome β :=
  match x with
  | .ok a => f a
  | .err e => .err e
  | .panic => .panic

instance : Monad Outcome where
  pure := .ok
  bind := Outcome.bind

/-- `Option::unwrap` / `Result::unwrap`. -/
def Outcome.unwrapOption {α : Type} : Option α → Outcome α
  | some a => .ok a
  | none => .panic

/-- `Result::unwrap`. -/
def Outcome.unwrapResult {ε α : Type} : Except ε α → Outcome α
  | .ok a => .ok a
  | .error _ => .panic

/-- `Option::ok_or(e)?`. -/
def Outcome.okOr {α : Type} (e : Error) : Option α → Outcome α
  | some a => .ok a
  | none => .err e

variable {R F : Type} [Scalar R] [Scalar F] [F64Conv R F]

/-- `sum_as_f64!` / `refsum_as_f64!` (`/repo/src/ray_intersection.rs:15-27`): convert every element
to `f64` (unwrapping) and add them up in order.  Simplification: all conversions happen before the
first addition. -/
def sumAsF64 {n : ℕ} (x : Fin n → R) : Outcome F :=
  match (List.ofFn x).mapM (F64Conv.toF64 (R := R) (F := F)) with
  | some l => .ok (l.foldl (· + ·) 0)
  | none => .panic

/-- `m.as_slice()` of a 3x3 matrix: column-major (`/repo/src/ray_intersection.rs:33`). -/
def asSlice {F : Type} (m : Mat 3 3 F) : Fin 9 → F :=
  ![m 0 0, m 1 0, m 2 0, m 0 1, m 1 1, m 2 1, m 0 2, m 1 2, m 2 2]

/-- `SMatrix::from_iterator`: fills column by column (`/repo/src/ray_intersection.rs:32`). -/
def fromIterator {R : Type} (x : Fin 9 → R) : Mat 3 3 R :=
  ![![x 0, x 3, x 6], ![x 1, x 4, x 7], ![x 2, x 5, x 8]]

/-- `despecialize!(a, R, 3, 3)` (`/repo/src/ray_intersection.rs:30-36`). -/
def despecialize (a : Mat 3 3 F) : Mat 3 3 R :=
  fromIterator fun k => F64Conv.ofF64 (asSlice a k)

/-- `my_pinv` (`/repo/src/ray_intersection.rs:176-185`). -/
def myPinv (trySvd : TrySvd F) (m : Mat 3 3 F) : Outcome (Mat 3 3 F) := do
  let d ← Outcome.okOr .svdFailed (trySvd m true true (Scalar.lit (1 / 10000000)) 100)
  Outcome.unwrapResult (d.pseudoInverse (Scalar.lit (1 / 10000000)))

/-- The first loop of `best_intersection_of_rays` (`/repo/src/ray_intersection.rs:61-82`): the matrix
of normalized directions. -/
def lineDirs {Coords : Type} (rays : List (Ray Coords R)) : Mat rays.length 3 R :=
  forRange rays.length (Mat.zeros rays.length 3) fun i lineDirs =>
    let rayWc := rays.get i
    let d := rayWc.direction
    let dir := V3.normalize ![d 0, d 1, d 2]
    let lineDirs := lineDirs.set i 0 (dir 0)
    let lineDirs := lineDirs.set i 1 (dir 1)
    lineDirs.set i 2 (dir 2)

/-- The first loop of `best_intersection_of_rays` (`/repo/src/ray_intersection.rs:61-82`): the matrix
of ray origins. -/
def linePoints {Coords : Type} (rays : List (Ray Coords R)) : Mat rays.length 3 R :=
  forRange rays.length (Mat.zeros rays.length 3) fun i linePoints =>
    let rayWc := rays.get i
    let linePoints := linePoints.set i 0 (rayWc.center 0)
    let linePoints := linePoints.set i 1 (rayWc.center 1)
    linePoints.set i 2 (rayWc.center 2)

/-- A loop `for (a, .., out) in izip!(.., out.iter_mut()) { *out = f }` over row vectors of equal
length (`/repo/src/ray_intersection.rs:99-121`). -/
def zipLoop {n : ℕ} (f : Fin n → R) : Fin n → R :=
  forRange n (fun _ => (0 : R)) fun i out => Function.update out i (f i)

/-- `best_intersection_of_rays` (`/repo/src/ray_intersection.rs:43-174`). -/
def bestIntersectionOfRays {Coords : Type} (trySvd : TrySvd F) (rays : List (Ray Coords R)) :
    Outcome (Points Coords R 1) :=
  if rays.length < 2 then .err .minimumTwoRaysNeeded
  else do
    let n := rays.length
    let dirs : Mat n 3 R := lineDirs rays
    let pts : Mat n 3 R := linePoints rays
    let nx := fun i => dirs i 0
    let ny := fun i => dirs i 1
    let nz := fun i => dirs i 2
    let minusone : R := Scalar.lit (-1)
    let xxm1 := zipLoop fun i => Scalar.powi (nx i) 2 + minusone
    let yym1 := zipLoop fun i => Scalar.powi (ny i) 2 + minusone
    let zzm1 := zipLoop fun i => Scalar.powi (nz i) 2 + minusone
    let xy := zipLoop fun i => nx i * ny i
    let xz := zipLoop fun i => nx i * nz i
    let yz := zipLoop fun i => ny i * nz i
    let SXX : F ← sumAsF64 xxm1
    let SYY : F ← sumAsF64 yym1
    let SZZ : F ← sumAsF64 zzm1
    let SXY : F ← sumAsF64 xy
    let SXZ : F ← sumAsF64 xz
    let SYZ : F ← sumAsF64 yz
    let S : Mat 3 3 F := ![![SXX, SXY, SXZ], ![SXY, SYY, SYZ], ![SXZ, SYZ, SZZ]]
    let px := fun i => pts i 0
    let py := fun i => pts i 1
    let pz := fun i => pts i 2
    let CX : F ← sumAsF64 fun i => px i * xxm1 i + py i * xy i + pz i * xz i
    let CX : R := F64Conv.ofF64 CX
    let CY : F ← sumAsF64 fun i => px i * xy i + py i * yym1 i + pz i * yz i
    let CY : R := F64Conv.ofF64 CY
    let CZ : F ← sumAsF64 fun i => px i * xz i + py i * yz i + pz i * zzm1 i
    let CZ : R := F64Conv.ofF64 CZ
    let C : V3 R := ![CX, CY, CZ]
    let sF64Pinv ← myPinv trySvd S
    let sPinv : Mat 3 3 R := despecialize sF64Pinv
    let r : V3 R := Mat.mulVec3 sPinv C
    pure { data := forRange 3 (Mat.zeros 1 3) fun j result => result.set 0 j (r j) }

end CamGeom

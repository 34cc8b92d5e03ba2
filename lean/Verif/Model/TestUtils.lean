import Verif.Model.Types
import Verif.Model.Camera

/-!
# `/repo/src/intrinsic_test_utils.rs` and `roundtrip_camera`
-/

namespace CamGeom

/-- `usize` subtraction with overflow checks (debug builds): panics on underflow
(`/repo/src/intrinsic_test_utils.rs:15,16`).  Release builds wrap around instead; not modelled. -/
def usizeSub (a b : ℕ) : Outcome ℕ := if b ≤ a then .ok (a - b) else .panic

/-- `num_iter::range_step(start, stop, step)` for an unsigned type
(`/repo/src/intrinsic_test_utils.rs:15,16`): iterator state. -/
structure RangeStep where
  state : ℕ
  stop : ℕ
  step : ℕ

/-- `RangeStep::next` of the `num-iter` crate: yields `state` while `state < stop`, then advances
with `checked_add` (`umax` is `usize::MAX`), jumping to `stop` on overflow. -/
def RangeStep.next (umax : ℕ) (r : RangeStep) : Option (ℕ × RangeStep) :=
  if r.state < r.stop then
    let x := r.state + r.step
    some (r.state, { r with state := if x ≤ umax then x else r.stop })
  else none

/-- Run the iterator for at most `fuel` steps, `none` if it has not finished. -/
def RangeStep.collect (umax : ℕ) : ℕ → RangeStep → Option (List ℕ)
  | fuel, r =>
    match r.next umax with
    | none => some []
    | some (x, r') =>
      match fuel with
      | 0 => none
      | fuel + 1 => (RangeStep.collect umax fuel r').map (x :: ·)

variable {R : Type} [Scalar R]

/-- The nested loops of `generate_uv_raw` (`/repo/src/intrinsic_test_utils.rs:15-19`) with the outer
iterator in state `r`, as a list of `(col, row)` pushed so far.  `none`: some loop did not end within
`fuel` iterations.  `width - border` is evaluated at the start of each row. -/
def uvRows (umax : ℕ) (width step border : ℕ) :
    ℕ → RangeStep → List (ℕ × ℕ) → Option (Outcome (List (ℕ × ℕ)))
  | fuel, r, uv =>
    match r.next umax with
    | none => some (.ok uv)
    | some (row, r') =>
      match fuel with
      | 0 => none
      | fuel + 1 =>
        match usizeSub width border with
        | .panic => some .panic
        | .err e => some (.err e)
        | .ok wstop =>
          match RangeStep.collect umax (fuel + 1) ⟨border, wstop, step⟩ with
          | none => none
          | some cols => uvRows umax width step border fuel r' (uv ++ cols.map fun col => (col, row))

/-- `generate_uv_raw` up to the end of the loops (`/repo/src/intrinsic_test_utils.rs:14-19`). -/
def uvRaws (umax fuel width height step border : ℕ) : Option (Outcome (List (ℕ × ℕ))) :=
  match usizeSub height border with
  | .panic => some .panic
  | .err e => some (.err e)
  | .ok hstop => uvRows umax width step border fuel ⟨border, hstop, step⟩ []

/-- `generate_uv_raw` after the loops (`/repo/src/intrinsic_test_utils.rs:21-27`): copy the list into
a matrix.  `col as f64` is modelled as exact (rounding above 2^53 not modelled). -/
def pixelsOfList (uv : List (ℕ × ℕ)) : Pixels R uv.length :=
  { data := forRange uv.length (fun _ _ => Scalar.lit 0) fun i data =>
      forRange 2 data fun j data =>
        data.set i j (![Scalar.lit ((uv.get i).1 : ℚ), Scalar.lit ((uv.get i).2 : ℚ)] j) }

/-- `abs_diff_eq` on scalars (`approx` crate). -/
def absDiffEq (a b eps : R) : Bool :=
  Scalar.le (if Scalar.lt b a then a - b else b - a) eps

/-- `approx::assert_abs_diff_eq!` on pixel matrices: panics unless all entries are close
(`/repo/src/intrinsic_test_utils.rs:54`). -/
def assertAbsDiffEq {n : ℕ} (a b : Pixels R n) (eps : R) : Outcome Unit :=
  if (List.finRange n).all fun i => (List.finRange 2).all fun j =>
      absDiffEq (a.data i j) (b.data i j) eps
  then .ok () else .panic

/-- `roundtrip_intrinsics` (`/repo/src/intrinsic_test_utils.rs:35-55`); `none` if it does not finish
within `fuel` loop iterations. -/
def roundtripIntrinsics {I : Type} [IntrinsicParameters R I] (umax fuel : ℕ) (cam : I)
    (width height step border : ℕ) (eps : R) : Option (Outcome Unit) :=
  (uvRaws umax fuel width height step border).map fun o =>
    match o with
    | .panic => .panic
    | .err e => .err e
    | .ok uv =>
      let pixels : Pixels R uv.length := pixelsOfList uv
      let camcoords := IntrinsicParameters.pixelToCamera cam pixels
      let cameraCoordsPoints := camcoords.pointOnRay
      let pixelActual := IntrinsicParameters.cameraToPixel cam cameraCoordsPoints
      assertAbsDiffEq pixels pixelActual eps

/-- `roundtrip_camera` (`/repo/src/camera.rs:201-222`, compiled for tests only); `none` if it does not
finish within `fuel` loop iterations. -/
def roundtripCamera {I : Type} [IntrinsicParameters R I] (umax fuel : ℕ) (cam : Camera R I)
    (width height step border : ℕ) (eps : R) : Option (Outcome Unit) :=
  (uvRaws umax fuel width height step border).map fun o =>
    match o with
    | .panic => .panic
    | .err e => .err e
    | .ok uv =>
      let pixels : Pixels R uv.length := pixelsOfList uv
      let worldCoords := cam.pixelToWorld pixels
      let worldCoordsPoints := worldCoords.pointOnRay
      let pixelActual := cam.worldToPixel worldCoordsPoints
      assertAbsDiffEq pixels pixelActual eps

end CamGeom

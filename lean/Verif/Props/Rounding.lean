import Verif.Lemmas.Rounding
import Verif.Lemmas.Fp64
import Verif.Lemmas.Loops
import Verif.Spec.Geometry

/-!
# C44, C47, C48: rounding errors

The theorems assume only the rounding laws `fl : Rounding R`, true of `f32` and `f64`, and that the
computed result is finite; no further restriction on the inputs.  `fl.val` is the real number a scalar
represents, `fl.u` the unit roundoff, `fl.ω` the smallest positive normal number.
-/

namespace CamGeom
open Rounding

variable {R : Type} [Scalar R] {n : ℕ}

/-! ### C44: pixel round trips -/

/-- Error of `fl(fl(fl(fl(p - c) / s) * s) + c)`. -/
theorem roundtrip_scalar (fl : Rounding R) (p c s z : R) (hz : fl.val z = 0)
    (hf : fl.isFinite ((z + (p - c) / s) * s + c)) :
    |fl.val ((z + (p - c) / s) * s + c) - fl.val p| ≤
      ((1 + fl.u) ^ 4 - 1) * (|fl.val p| + 2 * |fl.val c| + fl.ω * (|fl.val s| + 1)) := by
  obtain ⟨f1, fc, -⟩ := fl.add hf
  obtain ⟨f2, fs, -⟩ := fl.mul f1
  obtain ⟨fz, f3, -⟩ := fl.add f2
  obtain ⟨f4, h4⟩ := fl.div f3
  have hs := (h4 fs).1
  have a1 := Approx.sub f4 (Approx.exact fl p) (Approx.exact fl c)
  have a2 := Approx.div f3 fs a1
  have a3 := a2.of_eq (fl.zero_add fz f3 hz).2
  have a4 := Approx.mul f1 a3 (Approx.exact fl s)
  have a5 := Approx.add hf a4 ((Approx.exact fl c).mono (Nat.zero_le _) le_rfl)
  have e : (fl.val p - fl.val c) / fl.val s * fl.val s + fl.val c = fl.val p := by
    field_simp; ring
  have hs' : |fl.val s| ≠ 0 := abs_ne_zero.2 hs
  have hB : ((|fl.val p| + |fl.val c|) / |fl.val s| + fl.ω) * |fl.val s| + fl.ω + |fl.val c| =
      |fl.val p| + 2 * |fl.val c| + fl.ω * (|fl.val s| + 1) := by
    field_simp; ring
  rw [e, hB] at a5
  exact a5.2

/-- C44, orthographic model: the computed round trip `pixel_to_camera`, `point_on_ray`,
`camera_to_pixel` returns each pixel coordinate up to four roundings. -/
theorem c44_orthographic (fl : Rounding R) (p : OrthographicParams R) (px : Pixels R n) (i : Fin n)
    (a : Fin 2) (c s : R) (hc : c = ![p.cx, p.cy] a) (hs : s = ![p.sx, p.sy] a)
    (hf : fl.isFinite (((IntrinsicParametersOrthographic.ofParams p).cameraToPixel
      ((IntrinsicParametersOrthographic.ofParams p).pixelToCamera px).pointOnRay).data i a)) :
    |fl.val (((IntrinsicParametersOrthographic.ofParams p).cameraToPixel
        ((IntrinsicParametersOrthographic.ofParams p).pixelToCamera px).pointOnRay).data i a) -
      fl.val (px.data i a)| ≤
      ((1 + fl.u) ^ 4 - 1) *
        (|fl.val (px.data i a)| + 2 * |fl.val c| + fl.ω * (|fl.val s| + 1)) := by
  subst hc hs
  simp only [ortho_cameraToPixel, RayBundle.pointOnRay, Bundle.pointOnRay, sd_pointOnRay,
    ortho_pixelToCamera] at hf ⊢
  fin_cases a
  · exact roundtrip_scalar fl _ _ _ _ fl.zero.2 hf
  · exact roundtrip_scalar fl _ _ _ _ fl.zero.2 hf

/-- The homogeneous coordinate computed by `camera_to_pixel` is the depth, exactly. -/
theorem depth_exact (fl : Rounding R) {x y z : R} (hx : fl.isFinite x) (hy : fl.isFinite y)
    (hz : fl.isFinite z) :
    fl.isFinite (Scalar.lit 0 * x + Scalar.lit 0 * y + Scalar.lit 1 * z + Scalar.lit 0 * 1) ∧
    fl.val (Scalar.lit 0 * x + Scalar.lit 0 * y + Scalar.lit 1 * z + Scalar.lit 0 * 1) =
      fl.val z := by
  obtain ⟨f1, e1⟩ := fl.zero_mul fl.lit_zero.1 hx fl.lit_zero.2
  obtain ⟨f2, e2⟩ := fl.zero_mul fl.lit_zero.1 hy fl.lit_zero.2
  obtain ⟨f3, e3⟩ := fl.one_mul fl.lit_one.1 hz fl.lit_one.2
  obtain ⟨f4, e4⟩ := fl.zero_mul fl.lit_zero.1 fl.one.1 fl.lit_zero.2
  obtain ⟨f5, e5⟩ := fl.add_zero f1 f2 e2
  obtain ⟨f6, e6⟩ := fl.zero_add f5 f3 (e5.trans e1)
  obtain ⟨f7, e7⟩ := fl.add_zero f6 f4 e4
  exact ⟨f7, e7.trans (e6.trans e3)⟩

/-- First numerator of `camera_to_pixel`. -/
theorem num0 (fl : Rounding R) {fx s c x y z : R}
    (hf : fl.isFinite (fx * x + s * y + c * z + Scalar.lit 0 * 1)) :
    fl.isFinite (fx * x + s * y + c * z) ∧
    fl.val (fx * x + s * y + c * z + Scalar.lit 0 * 1) = fl.val (fx * x + s * y + c * z) := by
  obtain ⟨f1, f2, -⟩ := fl.add hf
  exact ⟨f1, (fl.add_zero f1 f2 (fl.zero_mul fl.lit_zero.1 fl.one.1 fl.lit_zero.2).2).2⟩

/-- Second numerator of `camera_to_pixel`. -/
theorem num1 (fl : Rounding R) {fy c x y z : R}
    (hf : fl.isFinite (Scalar.lit 0 * x + fy * y + c * z + Scalar.lit 0 * 1)) :
    fl.isFinite x ∧ fl.isFinite (fy * y) ∧ fl.isFinite (c * z) ∧
    fl.isFinite (Scalar.lit 0 * x + fy * y) ∧ fl.isFinite (Scalar.lit 0 * x + fy * y + c * z) ∧
    fl.val (Scalar.lit 0 * x + fy * y) = fl.val (fy * y) ∧
    fl.val (Scalar.lit 0 * x + fy * y + c * z + Scalar.lit 0 * 1) =
      fl.val (Scalar.lit 0 * x + fy * y + c * z) := by
  obtain ⟨f1, f2, -⟩ := fl.add hf
  obtain ⟨f3, f4, -⟩ := fl.add f1
  obtain ⟨f5, f6, -⟩ := fl.add f3
  obtain ⟨f7, f8, -⟩ := fl.mul f5
  exact ⟨f8, f6, f4, f3, f1, (fl.zero_add f5 f6 (fl.zero_mul f7 f8 fl.lit_zero.2).2).2,
    (fl.add_zero f1 f2 (fl.zero_mul fl.lit_zero.1 fl.one.1 fl.lit_zero.2).2).2⟩

/-- C44, perspective model, vertical coordinate. -/
theorem c44_perspective_v (fl : Rounding R) (p : PerspectiveParams R) (px : Pixels R n) (i : Fin n)
    (hf : fl.isFinite (((IntrinsicParametersPerspective.ofParams p).cameraToPixel
      ((IntrinsicParametersPerspective.ofParams p).pixelToCamera px).pointOnRay).data i 1)) :
    |fl.val (((IntrinsicParametersPerspective.ofParams p).cameraToPixel
        ((IntrinsicParametersPerspective.ofParams p).pixelToCamera px).pointOnRay).data i 1) -
      fl.val (px.data i 1)| ≤
      ((1 + fl.u) ^ 4 - 1) *
        (|fl.val (px.data i 1)| + 2 * |fl.val p.cy| + fl.ω * (|fl.val p.fy| + 1)) := by
  simp only [persp_cameraToPixel, RayBundle.pointOnRay, Bundle.pointOnRay, so_pointOnRay,
    persp_pixelToCamera] at hf ⊢
  simp only [Mat.mulVec4, V3.toHomogeneous, IntrinsicParametersPerspective.ofParams,
    SharedOriginRayBundle.newSharedZeroOrigin, Matrix.cons_val] at hf ⊢
  generalize px.data i 1 = v at *
  obtain ⟨fs, -⟩ := fl.div hf
  obtain ⟨fX, f1, f2, f3, f4, e3, e4⟩ := num1 fl fs
  obtain ⟨-, fY, -⟩ := fl.mul f1
  obtain ⟨fcy, fZ, -⟩ := fl.mul f2
  obtain ⟨ft, et⟩ := depth_exact fl fX fY fZ
  have eZ : fl.val (Scalar.lit 0 + Scalar.lit 1 : R) = 1 :=
    (fl.zero_add fl.lit_zero.1 fl.lit_one.1 fl.lit_zero.2).2.trans fl.lit_one.2
  rw [(fl.div_one fs ft (et.trans eZ)).2, e4]
  -- from here on as in `roundtrip_scalar`
  obtain ⟨ffy, -, -⟩ := fl.mul f1
  obtain ⟨-, fy', -⟩ := fl.add fY
  obtain ⟨fsub, h4⟩ := fl.div fy'
  have hs := (h4 ffy).1
  have a1 := Approx.sub fsub (Approx.exact fl v) (Approx.exact fl p.cy)
  have a2 := Approx.div fy' ffy a1
  have a3 := a2.of_eq (fl.zero_add fl.lit_zero.1 fy' fl.lit_zero.2).2
  have a4 := (Approx.mul f1 (Approx.exact fl p.fy) a3).of_eq e3
  have a5 := Approx.add f4 a4 (((Approx.exact fl p.cy).of_eq
    (fl.mul_one fcy fZ eZ).2).mono (Nat.zero_le _) le_rfl)
  have e : fl.val p.fy * ((fl.val v - fl.val p.cy) / fl.val p.fy) + fl.val p.cy = fl.val v := by
    field_simp; ring
  have hs' : |fl.val p.fy| ≠ 0 := abs_ne_zero.2 hs
  have hB : |fl.val p.fy| * ((|fl.val v| + |fl.val p.cy|) / |fl.val p.fy| + fl.ω) + fl.ω +
      |fl.val p.cy| = |fl.val v| + 2 * |fl.val p.cy| + fl.ω * (|fl.val p.fy| + 1) := by
    field_simp; ring
  rw [e, hB] at a5
  exact a5.2

/-- C44, perspective model, horizontal coordinate: six roundings.  The bound contains the magnitude of
the computed skew term `skew * y`, which is zero for a camera without skew. -/
theorem c44_perspective_u (fl : Rounding R) (p : PerspectiveParams R) (px : Pixels R n) (i : Fin n)
    (hf : fl.isFinite (((IntrinsicParametersPerspective.ofParams p).cameraToPixel
      ((IntrinsicParametersPerspective.ofParams p).pixelToCamera px).pointOnRay).data i 0)) :
    |fl.val (((IntrinsicParametersPerspective.ofParams p).cameraToPixel
        ((IntrinsicParametersPerspective.ofParams p).pixelToCamera px).pointOnRay).data i 0) -
      fl.val (px.data i 0)| ≤
      ((1 + fl.u) ^ 6 - 1) *
        (|fl.val (px.data i 0)| + 2 * |fl.val p.cx| +
          2 * |fl.val (p.skew * ((px.data i 1 - p.cy) / p.fy))| + fl.ω * (|fl.val p.fx| + 1)) := by
  simp only [persp_cameraToPixel, RayBundle.pointOnRay, Bundle.pointOnRay, so_pointOnRay,
    persp_pixelToCamera] at hf ⊢
  simp only [Mat.mulVec4, V3.toHomogeneous, IntrinsicParametersPerspective.ofParams,
    SharedOriginRayBundle.newSharedZeroOrigin, Matrix.cons_val] at hf ⊢
  generalize px.data i 0 = v at *
  generalize (px.data i 1 - p.cy) / p.fy = y at *
  obtain ⟨fs, -⟩ := fl.div hf
  obtain ⟨f1, e1⟩ := num0 fl fs
  obtain ⟨f2, f3, -⟩ := fl.add f1
  obtain ⟨f4, f5, -⟩ := fl.add f2
  obtain ⟨ffx, fX, -⟩ := fl.mul f4
  obtain ⟨fsk, fY, -⟩ := fl.mul f5
  obtain ⟨fcx, fZ, -⟩ := fl.mul f3
  obtain ⟨ft, et⟩ := depth_exact fl fX fY fZ
  have eZ : fl.val (Scalar.lit 0 + Scalar.lit 1 : R) = 1 :=
    (fl.zero_add fl.lit_zero.1 fl.lit_one.1 fl.lit_zero.2).2.trans fl.lit_one.2
  rw [(fl.div_one fs ft (et.trans eZ)).2, e1]
  obtain ⟨-, fx', -⟩ := fl.add fX
  obtain ⟨-, fy', -⟩ := fl.add fY
  obtain ⟨fd, h4⟩ := fl.div fx'
  obtain ⟨fd1, -, -⟩ := fl.sub fd
  have hs := (h4 ffx).1
  have ek : fl.val (p.skew * (Scalar.lit 0 + y)) = fl.val (p.skew * y) :=
    fl.mul_congr f5 fsk fy' rfl (fl.zero_add fl.lit_zero.1 fy' fl.lit_zero.2).2
  have a1 := Approx.sub fd1 (Approx.exact fl v) (Approx.exact fl (p.skew * y))
  have a2 := Approx.sub fd a1 ((Approx.exact fl p.cx).mono (Nat.zero_le _) le_rfl)
  have a3 := (Approx.div fx' ffx a2).of_eq (fl.zero_add fl.lit_zero.1 fx' fl.lit_zero.2).2
  have a4 := Approx.mul f4 (Approx.exact fl p.fx) a3
  have a5 := Approx.add f2 a4 (((Approx.exact fl (p.skew * y)).of_eq ek).mono (Nat.zero_le _) le_rfl)
  have a6 := Approx.add f1 a5 (((Approx.exact fl p.cx).of_eq
    (fl.mul_one fcx fZ eZ).2).mono (Nat.zero_le _) le_rfl)
  have e : fl.val p.fx * ((fl.val v - fl.val (p.skew * y) - fl.val p.cx) / fl.val p.fx) +
      fl.val (p.skew * y) + fl.val p.cx = fl.val v := by
    field_simp; ring
  have hs' : |fl.val p.fx| ≠ 0 := abs_ne_zero.2 hs
  have hB : |fl.val p.fx| * ((|fl.val v| + |fl.val (p.skew * y)| + |fl.val p.cx|) / |fl.val p.fx| +
      fl.ω) + fl.ω + |fl.val (p.skew * y)| + |fl.val p.cx| = |fl.val v| + 2 * |fl.val p.cx| +
        2 * |fl.val (p.skew * y)| + fl.ω * (|fl.val p.fx| + 1) := by
    field_simp; ring
  rw [e, hB] at a6
  exact a6.2

/-! ### C48: accuracy of `camera_to_pixel` -/

/-- C48: each finite computed pixel of the perspective model is the exact pinhole projection of the
point up to four roundings, relative to the magnitude of the summands of the formula.  In particular
the depth of a point with a finite pixel is not zero. -/
theorem c48_perspective (fl : Rounding R) (p : PerspectiveParams R) (w : Points CameraFrame R n)
    (i : Fin n) (x y z : ℝ) (hx : x = fl.val (w.data i 0)) (hy : y = fl.val (w.data i 1))
    (hz : z = fl.val (w.data i 2)) :
    (fl.isFinite (((IntrinsicParametersPerspective.ofParams p).cameraToPixel w).data i 0) → z ≠ 0 ∧
      |fl.val (((IntrinsicParametersPerspective.ofParams p).cameraToPixel w).data i 0) -
        (fl.val p.fx * x + fl.val p.skew * y + fl.val p.cx * z) / z| ≤ ((1 + fl.u) ^ 4 - 1) *
        ((|fl.val p.fx * x| + |fl.val p.skew * y| + |fl.val p.cx * z| + 3 * fl.ω) / |z| + fl.ω)) ∧
    (fl.isFinite (((IntrinsicParametersPerspective.ofParams p).cameraToPixel w).data i 1) → z ≠ 0 ∧
      |fl.val (((IntrinsicParametersPerspective.ofParams p).cameraToPixel w).data i 1) -
        (fl.val p.fy * y + fl.val p.cy * z) / z| ≤ ((1 + fl.u) ^ 3 - 1) *
        ((|fl.val p.fy * y| + |fl.val p.cy * z| + 2 * fl.ω) / |z| + fl.ω)) := by
  subst hx hy hz
  simp only [persp_cameraToPixel]
  simp only [Mat.mulVec4, V3.toHomogeneous, IntrinsicParametersPerspective.ofParams, Matrix.cons_val]
  generalize w.data i 0 = x
  generalize w.data i 1 = y
  generalize w.data i 2 = z
  constructor
  · intro hf
    obtain ⟨fs, hd⟩ := fl.div hf
    obtain ⟨f1, e1⟩ := num0 fl fs
    obtain ⟨f2, f3, -⟩ := fl.add f1
    obtain ⟨f4, f5, -⟩ := fl.add f2
    obtain ⟨ft, et⟩ := depth_exact fl (fl.mul f4).2.1 (fl.mul f5).2.1 (fl.mul f3).2.1
    have a1 := Approx.mul f4 (Approx.exact fl p.fx) (Approx.exact fl x)
    have a2 := Approx.mul f5 (Approx.exact fl p.skew) (Approx.exact fl y)
    have a3 := Approx.mul f3 (Approx.exact fl p.cx) (Approx.exact fl z)
    have a4 := Approx.add f1 (Approx.add f2 a1 a2) (a3.mono (k' := 2) (by norm_num) le_rfl)
    have a5 := Approx.div hf ft (a4.of_eq e1)
    rw [et] at a5
    refine ⟨fun h => (hd ft).1 (et.trans h), a5.2.trans (le_of_eq ?_)⟩
    simp only [abs_mul]
    ring
  · intro hf
    obtain ⟨fs, hd⟩ := fl.div hf
    obtain ⟨fx, f1, f2, f3, f4, e3, e4⟩ := num1 fl fs
    obtain ⟨ft, et⟩ := depth_exact fl fx (fl.mul f1).2.1 (fl.mul f2).2.1
    have a1 := (Approx.mul f1 (Approx.exact fl p.fy) (Approx.exact fl y)).of_eq e3
    have a2 := Approx.mul f2 (Approx.exact fl p.cy) (Approx.exact fl z)
    have a3 := Approx.div hf ft ((Approx.add f4 a1 a2).of_eq e4)
    rw [et] at a3
    refine ⟨fun h => (hd ft).1 (et.trans h), a3.2.trans (le_of_eq ?_)⟩
    simp only [abs_mul]
    ring

/-- C48, orthographic model: two roundings. -/
theorem c48_orthographic (fl : Rounding R) (p : OrthographicParams R) (w : Points CameraFrame R n)
    (i : Fin n) (x y : ℝ) (hx : x = fl.val (w.data i 0)) (hy : y = fl.val (w.data i 1)) :
    (fl.isFinite (((IntrinsicParametersOrthographic.ofParams p).cameraToPixel w).data i 0) →
      |fl.val (((IntrinsicParametersOrthographic.ofParams p).cameraToPixel w).data i 0) -
        (x * fl.val p.sx + fl.val p.cx)| ≤ ((1 + fl.u) ^ 2 - 1) *
        (|x * fl.val p.sx| + |fl.val p.cx| + fl.ω)) ∧
    (fl.isFinite (((IntrinsicParametersOrthographic.ofParams p).cameraToPixel w).data i 1) →
      |fl.val (((IntrinsicParametersOrthographic.ofParams p).cameraToPixel w).data i 1) -
        (y * fl.val p.sy + fl.val p.cy)| ≤ ((1 + fl.u) ^ 2 - 1) *
        (|y * fl.val p.sy| + |fl.val p.cy| + fl.ω)) := by
  subst hx hy
  simp only [ortho_cameraToPixel]
  simp only [IntrinsicParametersOrthographic.ofParams, Matrix.cons_val]
  have key : ∀ a s c : R, fl.isFinite (a * s + c) → |fl.val (a * s + c) -
      (fl.val a * fl.val s + fl.val c)| ≤ ((1 + fl.u) ^ 2 - 1) *
        (|fl.val a * fl.val s| + |fl.val c| + fl.ω) := by
    intro a s c hf
    have a1 := Approx.mul (fl.add hf).1 (Approx.exact fl a) (Approx.exact fl s)
    have a2 := Approx.add hf a1 ((Approx.exact fl c).mono (Nat.zero_le _) le_rfl)
    refine a2.2.trans (le_of_eq ?_)
    rw [abs_mul]
    ring
  exact ⟨key _ _ _, key _ _ _⟩

/-- C48: the directions computed by the perspective `pixel_to_camera` are those of the exact inverse
formula, for the second component. -/
theorem c48_direction_v (fl : Rounding R) (p : PerspectiveParams R) (px : Pixels R n) (i : Fin n)
    (hy : fl.isFinite p.fy)
    (hf : fl.isFinite (((IntrinsicParametersPerspective.ofParams p).pixelToCamera px).data i 1)) :
    |fl.val (((IntrinsicParametersPerspective.ofParams p).pixelToCamera px).data i 1) -
      (fl.val (px.data i 1) - fl.val p.cy) / fl.val p.fy| ≤ ((1 + fl.u) ^ 2 - 1) *
        ((|fl.val (px.data i 1)| + |fl.val p.cy|) / |fl.val p.fy| + fl.ω) := by
  simp only [persp_pixelToCamera, IntrinsicParametersPerspective.ofParams, Matrix.cons_val] at hf ⊢
  exact (Approx.div hf hy (Approx.sub (fl.div hf).1 (Approx.exact fl _) (Approx.exact fl _))).2

/-- C48: the first component of the directions, in whose formula the skew multiplies the rounded second
component. -/
theorem c48_direction_u (fl : Rounding R) (p : PerspectiveParams R) (px : Pixels R n) (i : Fin n)
    (hx : fl.isFinite p.fx) (hy : fl.isFinite p.fy)
    (hf : fl.isFinite (((IntrinsicParametersPerspective.ofParams p).pixelToCamera px).data i 0)) :
    |fl.val (((IntrinsicParametersPerspective.ofParams p).pixelToCamera px).data i 0) -
      (fl.val (px.data i 0) - fl.val p.skew * ((fl.val (px.data i 1) - fl.val p.cy) / fl.val p.fy) -
        fl.val p.cx) / fl.val p.fx| ≤ ((1 + fl.u) ^ 6 - 1) *
        ((|fl.val (px.data i 0)| + (|fl.val p.skew| *
            ((|fl.val (px.data i 1)| + |fl.val p.cy|) / |fl.val p.fy| + fl.ω) + fl.ω) + |fl.val p.cx|) /
          |fl.val p.fx| + fl.ω) := by
  simp only [persp_pixelToCamera, IntrinsicParametersPerspective.ofParams, Matrix.cons_val] at hf ⊢
  obtain ⟨f1, -⟩ := fl.div hf
  obtain ⟨f2, -, -⟩ := fl.sub f1
  obtain ⟨-, f3, -⟩ := fl.sub f2
  have f4 := (fl.mul f3).2.1
  have a1 := Approx.div f4 hy (Approx.sub (fl.div f4).1 (Approx.exact fl _) (Approx.exact fl _))
  have a2 := Approx.mul f3 (Approx.exact fl p.skew) a1
  have a3 := Approx.sub f2 ((Approx.exact fl (px.data i 0)).mono (Nat.zero_le _) le_rfl) a2
  have a4 := Approx.sub f1 a3 ((Approx.exact fl p.cx).mono (Nat.zero_le _) le_rfl)
  exact (Approx.div hf hx a4).2

/-- C48: the third component of the directions is exactly one. -/
theorem c48_direction_z (fl : Rounding R) (p : PerspectiveParams R) (px : Pixels R n) (i : Fin n) :
    fl.isFinite (((IntrinsicParametersPerspective.ofParams p).pixelToCamera px).data i 2) ∧
      fl.val (((IntrinsicParametersPerspective.ofParams p).pixelToCamera px).data i 2) = 1 := by
  simp only [persp_pixelToCamera, Matrix.cons_val]
  exact fl.lit_one

/-- C48: the ray origins computed by the orthographic `pixel_to_camera`. -/
theorem c48_orthographic_origin (fl : Rounding R) (p : OrthographicParams R) (px : Pixels R n) (i : Fin n) :
    (fl.isFinite p.sx → fl.isFinite (((IntrinsicParametersOrthographic.ofParams p).pixelToCamera px).data i 0) →
      |fl.val (((IntrinsicParametersOrthographic.ofParams p).pixelToCamera px).data i 0) -
        (fl.val (px.data i 0) - fl.val p.cx) / fl.val p.sx| ≤ ((1 + fl.u) ^ 2 - 1) *
          ((|fl.val (px.data i 0)| + |fl.val p.cx|) / |fl.val p.sx| + fl.ω)) ∧
    (fl.isFinite p.sy → fl.isFinite (((IntrinsicParametersOrthographic.ofParams p).pixelToCamera px).data i 1) →
      |fl.val (((IntrinsicParametersOrthographic.ofParams p).pixelToCamera px).data i 1) -
        (fl.val (px.data i 1) - fl.val p.cy) / fl.val p.sy| ≤ ((1 + fl.u) ^ 2 - 1) *
          ((|fl.val (px.data i 1)| + |fl.val p.cy|) / |fl.val p.sy| + fl.ω)) ∧
    fl.val (((IntrinsicParametersOrthographic.ofParams p).pixelToCamera px).data i 2) = 0 := by
  simp only [ortho_pixelToCamera, IntrinsicParametersOrthographic.ofParams, Matrix.cons_val]
  refine ⟨fun hs hf => ?_, fun hs hf => ?_, fl.lit_zero.2⟩ <;>
    exact (Approx.div hf hs (Approx.sub (fl.div hf).1 (Approx.exact fl _) (Approx.exact fl _))).2

/-! ### The hypotheses can be met: 53-bit arithmetic -/

/-- Non-vacuity of the orthographic part of C44: scale 1, centre 1, pixel (3, 3). -/
example : Fp64.rounding.isFinite (((IntrinsicParametersOrthographic.ofParams
    (⟨.some 1, .some 1, .some 1, .some 1⟩ : OrthographicParams Fp64)).cameraToPixel
      ((IntrinsicParametersOrthographic.ofParams ⟨.some 1, .some 1, .some 1, .some 1⟩).pixelToCamera
        (⟨fun _ _ => .some 3⟩ : Pixels Fp64 1)).pointOnRay).data 0 0) := by
  simp only [ortho_cameraToPixel, RayBundle.pointOnRay, Bundle.pointOnRay, sd_pointOnRay,
    ortho_pixelToCamera]
  have h2 : |Fp64.rnd (3 - 1)| ≤ 40 := (Fp64.rnd_abs _).trans (by norm_num)
  have e : (0 + (Fp64.some 3 - .some 1) / .some 1) * .some 1 = Fp64.some (Fp64.rnd (3 - 1)) := by
    rw [Fp64.sub_some, Fp64.fl_finite (by norm_num), Fp64.div_some, if_neg one_ne_zero, if_pos rfl]
    change (Fp64.some 0 + _) * _ = _
    rw [Fp64.add_some]
    split_ifs with h0 h0'
    · rw [h0, Fp64.mul_some, if_pos (Or.inl rfl)]
    · rw [Fp64.mul_some]
      split_ifs with h1 h2 h3
      · simp_all
      · rw [h2]
      · rfl
      · exact absurd rfl h3
    · exact absurd rfl h0'
  change Fp64.Finite' ((0 + (Fp64.some 3 - .some 1) / .some 1) * .some 1 + Fp64.some 1)
  rw [e]
  exact Fp64.add_finite h2 (by norm_num)

/-- Non-vacuity of C48 and of the perspective part of C44: the point (0, 0, 1) has finite pixel
coordinates. -/
example (a : Fin 2) : Fp64.rounding.isFinite (((IntrinsicParametersPerspective.ofParams
    (⟨.some 100, .some 100, .some 0, .some 10, .some 20⟩ : PerspectiveParams Fp64)).cameraToPixel
      (⟨fun _ => ![.some 0, .some 0, .some 1]⟩ : Points CameraFrame Fp64 1)).data 0 a) := by
  have l0 : (Scalar.lit 0 : Fp64) = .some 0 := by simp [Scalar.lit]
  have l1 : (Scalar.lit 1 : Fp64) = .some 1 := by simp [Scalar.lit]
  have o1 : (1 : Fp64) = .some 1 := rfl
  simp only [persp_cameraToPixel, Mat.mulVec4, V3.toHomogeneous,
    IntrinsicParametersPerspective.ofParams, Matrix.cons_val, l0, l1, o1]
  fin_cases a <;>
    simp [Fp64.mul_some, Fp64.add_some, Fp64.div_some, Fp64.rounding]

/-- Non-vacuity of the part of C48 on `pixel_to_camera`: the direction of the pixel (0, 20) is finite. -/
example (a : Fin 3) : Fp64.rounding.isFinite (((IntrinsicParametersPerspective.ofParams
    (⟨.some 100, .some 100, .some 0, .some 0, .some 20⟩ : PerspectiveParams Fp64)).pixelToCamera
      (⟨fun _ => ![.some 0, .some 20]⟩ : Pixels Fp64 1)).data 0 a) := by
  have l1 : (Scalar.lit 1 : Fp64) = .some 1 := by simp [Scalar.lit]
  simp only [persp_pixelToCamera, IntrinsicParametersPerspective.ofParams, l1]
  fin_cases a <;>
    simp [Fp64.mul_some, Fp64.sub_some, Fp64.div_some, Fp64.rounding]

end CamGeom

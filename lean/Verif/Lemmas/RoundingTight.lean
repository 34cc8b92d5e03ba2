import Verif.Lemmas.ViewRay

/-!
# Sharper magnitudes for rotations

The magnitudes of C47 bound each component of the quaternion separately.  For a quaternion whose squared norm is at most
`n`, the sums of products in a rotation are smaller; this matters in single precision.
-/

namespace CamGeom
open Rounding ExtrinsicParameters Spec Matrix

variable {R : Type} [Scalar R] {fl : Rounding R} {M n : ℝ} {k : ℕ}

theorem four_sq_le {w i j k n : ℝ} (h : w ^ 2 + i ^ 2 + j ^ 2 + k ^ 2 ≤ n) :
    |w| * |w| + |i| * |i| + |j| * |j| + |k| * |k| ≤ n ∧ |i| * |j| * 2 + |w| * |k| * 2 ≤ n ∧
    |w| * |j| * 2 + |i| * |k| * 2 ≤ n ∧ |j| * |k| * 2 + |w| * |i| * 2 ≤ n := by
  have e : |w| ^ 2 + |i| ^ 2 + |j| ^ 2 + |k| ^ 2 ≤ n := by rw [sq_abs, sq_abs, sq_abs, sq_abs]; exact h
  exact ⟨by linarith, by linarith [sq_nonneg (|i| - |j|), sq_nonneg (|w| - |k|)],
    by linarith [sq_nonneg (|w| - |j|), sq_nonneg (|i| - |k|)],
    by linarith [sq_nonneg (|j| - |k|), sq_nonneg (|w| - |i|)]⟩

/-- The rotation matrix of a quaternion whose squared norm is at most `n`. -/
theorem rotation_tight {q : Quat R} (hn : quatNormSq (fl.quat q) ≤ n) (a b : Fin 3) :
    fl.Comp 4 (n + 6 * fl.ω) (q.toRotationMatrix a b) ((fl.quat q).toRotationMatrix a b) := by
  obtain ⟨n1, n2, n3, n4⟩ := four_sq_le hn
  have two : fl.Comp 0 2 (Scalar.lit 2 : R) (Scalar.lit 2 : ℝ) := (Comp.two fl).congr (by simp)
  have hω := fl.ω_nonneg
  have hw := Comp.exact fl q.w
  have hi := Comp.exact fl q.i
  have hj := Comp.exact fl q.j
  have hk := Comp.exact fl q.k
  have ww := hw.mul hw
  have ii := hi.mul hi
  have jj := hj.mul hj
  have kk := hk.mul hk
  have ij := (hi.mul hj).mul two
  have wk := (hw.mul hk).mul two
  have wj := (hw.mul hj).mul two
  have ik := (hi.mul hk).mul two
  have jk := (hj.mul hk).mul two
  have wi := (hw.mul hi).mul two
  have up : ∀ {x : R} {X B : ℝ} {k : ℕ}, fl.Comp k B x X → ∀ m, fl.Comp (k + m) B x X :=
    fun h m => h.mono (Nat.le_add_right _ _) le_rfl
  simp only [Rounding.quat] at n1 n2 n3 n4
  fin_cases a <;> fin_cases b
  · exact (((ww.add ii).sub (up jj 1)).sub (up kk 2)).mono le_rfl (by linarith)
  · exact (ij.sub wk).mono (by norm_num) (by linarith)
  · exact (wj.add ik).mono (by norm_num) (by linarith)
  · exact (wk.add ij).mono (by norm_num) (by linarith)
  · exact (((ww.sub ii).add (up jj 1)).sub (up kk 2)).mono le_rfl (by linarith)
  · exact (jk.sub wi).mono (by norm_num) (by linarith)
  · exact (ik.sub wj).mono (by norm_num) (by linarith)
  · exact (wi.add jk).mono (by norm_num) (by linarith)
  · exact (((ww.sub ii).sub (up jj 1)).add (up kk 2)).mono le_rfl (by linarith)

/-- The cached translation of a camera whose centre has coordinates up to `M`. -/
theorem translation_tight {q : Quat R} {c : V3 R} {ρ : ℝ}
    (hr : ∀ a b, fl.Comp 4 ρ (q.toRotationMatrix a b) ((fl.quat q).toRotationMatrix a b))
    (hc : ∀ i, |fl.val (c i)| ≤ M) (a : Fin 3) :
    fl.Comp 7 (3 * (ρ * M + fl.ω)) ((fromRotationAndCamcenter q c).translation a)
      ((fromRotationAndCamcenter (fl.quat q) (fl.vec c)).translation a) := by
  have h : ∀ b, fl.Comp 5 (ρ * M + fl.ω) (q.toRotationMatrix a b * c b)
    ((fl.quat q).toRotationMatrix a b * fl.vec c b) := fun b => (hr a b).mul (Comp.of_le (hc b))
  exact (((h 0).add (h 1)).add ((h 2).mono (k' := 6) (by norm_num) le_rfl)).neg.mono le_rfl (by linarith)

theorem abs_le_one_add {w i j k : ℝ} (h : w ^ 2 + i ^ 2 + j ^ 2 + k ^ 2 ≤ n) :
    |w| ≤ 1 + n ∧ |i| ≤ 1 + n ∧ |j| ≤ 1 + n ∧ |k| ≤ 1 + n := by
  have e : ∀ {a b : ℝ}, 0 ≤ b → a ^ 2 + b ≤ n → |a| ≤ 1 + n := by
    intro a b hb h
    rw [← sq_abs] at h
    nlinarith [sq_nonneg (|a| - 1)]
  exact ⟨e (b := i ^ 2 + j ^ 2 + k ^ 2) (by positivity) (by linarith),
    e (b := w ^ 2 + j ^ 2 + k ^ 2) (by positivity) (by linarith),
    e (b := w ^ 2 + i ^ 2 + k ^ 2) (by positivity) (by linarith),
    e (b := w ^ 2 + i ^ 2 + j ^ 2) (by positivity) (by linarith)⟩

/-- Products in one coordinate of a rotated vector. -/
theorem rotate_sum_le {w i j k : ℝ} (h : w ^ 2 + i ^ 2 + j ^ 2 + k ^ 2 ≤ n) :
    |w| * (|j| + |k|) + |j| * (|i| + |j|) + |k| * (|i| + |k|) ≤ 13 / 8 * n := by
  rw [← sq_abs w, ← sq_abs i, ← sq_abs j, ← sq_abs k] at h
  have am : ∀ a b : ℝ, a * b ≤ 13 / 16 * a ^ 2 + 4 / 13 * b ^ 2 := fun a b => by
    nlinarith [sq_nonneg (13 * a - 8 * b)]
  have h1 := am |w| |j|
  have h2 := am |w| |k|
  have h3 := am |i| |j|
  have h4 := am |i| |k|
  nlinarith [sq_nonneg |j|, sq_nonneg |k|]

/-- The components of `q` have the values of `q'`, if they are finite. -/
def QExact (fl : Rounding R) (q : Quat R) (q' : Quat ℝ) : Prop :=
  fl.Comp 0 |q'.w| q.w q'.w ∧ fl.Comp 0 |q'.i| q.i q'.i ∧ fl.Comp 0 |q'.j| q.j q'.j ∧ fl.Comp 0 |q'.k| q.k q'.k

theorem QExact.quat (fl : Rounding R) (q : Quat R) : QExact fl q (fl.quat q) :=
  ⟨Comp.exact fl _, Comp.exact fl _, Comp.exact fl _, Comp.exact fl _⟩

theorem QExact.inverse {q : Quat R} {q' : Quat ℝ} (h : QExact fl q q') : QExact fl q.inverse q'.inverse :=
  ⟨h.1, h.2.1.neg.mono le_rfl (abs_neg _).ge, h.2.2.1.neg.mono le_rfl (abs_neg _).ge,
    h.2.2.2.neg.mono le_rfl (abs_neg _).ge⟩

/-- A rotated vector: `q.rotate v = v + w t + u × t` with `t = 2 u × v`. -/
theorem rotate_tight {q : Quat R} {q' : Quat ℝ} (hq : QExact fl q q') (hn : quatNormSq q' ≤ n) {v : V3 R} {v' : V3 ℝ} (hM : 0 ≤ M)
    (hv : ∀ i, fl.Comp k M (v i) (v' i)) (a : Fin 3) :
    fl.Comp (k + 7) ((13 / 4 * n + 1) * M + fl.ω * (15 * n + 18)) (q.rotate v a) (q'.rotate v' a) := by
  have hω := fl.ω_nonneg
  obtain ⟨hw, hi, hj, hk⟩ := hq
  have two := Comp.two fl
  have main : ∀ {w i j l : ℝ} {w' i' j' l' : R} {x y z : R} {X Y Z : ℝ},
      w ^ 2 + i ^ 2 + j ^ 2 + l ^ 2 ≤ n → fl.Comp 0 |w| w' w → fl.Comp 0 |i| i' i → fl.Comp 0 |j| j' j →
      fl.Comp 0 |l| l' l → fl.Comp k M x X → fl.Comp k M y Y → fl.Comp k M z Z →
      fl.Comp (k + 7) ((13 / 4 * n + 1) * M + fl.ω * (15 * n + 18))
        ((j' * z - l' * y) * Scalar.lit 2 * w' +
          (j' * ((i' * y - j' * x) * Scalar.lit 2) - l' * ((l' * x - i' * z) * Scalar.lit 2)) + x)
        ((j * Z - l * Y) * 2 * w + (j * ((i * Y - j * X) * 2) - l * ((l * X - i * Z) * 2)) + X) := by
    intro w i j l w' i' j' l' x y z X Y Z h hw hi hj hl hx hy hz
    have t : ∀ {a b : ℝ} {a' b' : R} {x y : R} {X Y : ℝ}, fl.Comp 0 |a| a' a → fl.Comp 0 |b| b' b →
        fl.Comp k M x X → fl.Comp k M y Y →
        fl.Comp (k + 3) (2 * (|a| + |b|) * M + 5 * fl.ω) ((a' * x - b' * y) * Scalar.lit 2) ((a * X - b * Y) * 2) := by
      intro a b a' b' x y X Y ha hb hx hy
      exact (((ha.mul hx).sub (hb.mul hy)).mul two).mono (by omega) (by nlinarith)
    have h0 := (t hj hl hz hy).mul hw
    have h1 := hj.mul (t hi hj hy hx)
    have h2 := hl.mul (t hl hi hx hz)
    have h3 := ((h0.mono (k' := k + 5) (by omega) le_rfl).add
      ((h1.sub (h2.mono (by omega) le_rfl)).mono (k' := k + 5) (by omega) le_rfl)).add
      (hx.mono (k' := k + 6) (by omega) le_rfl)
    refine h3.mono le_rfl ?_
    have s := mul_le_mul_of_nonneg_right (rotate_sum_le h) hM
    obtain ⟨b1, -, b3, b4⟩ := abs_le_one_add h
    have s1 := mul_le_mul_of_nonneg_left b1 hω
    have s3 := mul_le_mul_of_nonneg_left b3 hω
    have s4 := mul_le_mul_of_nonneg_left b4 hω
    linarith
  have hn' : q'.w ^ 2 + q'.i ^ 2 + q'.j ^ 2 + q'.k ^ 2 ≤ n := hn
  fin_cases a
  · exact (main hn' hw hi hj hk (hv 0) (hv 1) (hv 2)).congr (by simp [Quat.rotate, V3.add, V3.scale, V3.cross, Quat.vector])
  · exact (main (by linarith) hw hj hk hi (hv 1) (hv 2) (hv 0)).congr (by simp [Quat.rotate, V3.add, V3.scale, V3.cross, Quat.vector])
  · exact (main (by linarith) hw hk hi hj (hv 2) (hv 0) (hv 1)).congr (by simp [Quat.rotate, V3.add, V3.scale, V3.cross, Quat.vector])

/-- Magnitude of a rotated vector with entries up to `B`. -/
noncomputable def rotTight (n ω B : ℝ) : ℝ := (13 / 4 * n + 1) * B + ω * (15 * n + 18)

/-- Magnitude of the translation of a camera whose centre has coordinates up to `M`. -/
noncomputable def transTight (n ω M : ℝ) : ℝ := 3 * ((n + 6 * ω) * M + ω)

theorem quatNormSq_le {ε : ℝ} {q : Quat ℝ} (hε : |quatNormSq q - 1| ≤ ε) : quatNormSq q ≤ 1 + ε := by
  linarith [(abs_le.1 hε).2]

theorem transTight_nonneg (hn : 0 ≤ n) (hM : 0 ≤ M) : 0 ≤ transTight n fl.ω M := by
  have := fl.ω_nonneg
  unfold transTight
  positivity

theorem rayDirection_tight {q : Quat R} {c d : V3 R} {ε B : ℝ} (hε : |quatNormSq (fl.quat q) - 1| ≤ ε)
    (hd : ∀ a, |fl.val (d a)| ≤ B) (a : Fin 3)
    (hf : fl.isFinite ((fromRotationAndCamcenter q c).cache.poseInv.transformVector d a)) :
    |fl.val ((fromRotationAndCamcenter q c).cache.poseInv.transformVector d a) -
      (fl.quat q).inverse.rotate (fl.vec d) a| ≤ ((1 + fl.u) ^ 7 - 1) * rotTight (1 + ε) fl.ω B := by
  have hq : quatNormSq (fl.quat q).inverse ≤ 1 + ε := by
    rw [quatNormSq_inverse]; exact quatNormSq_le hε
  have h1 := rotate_tight (v' := fl.vec d) (QExact.quat fl q).inverse hq ((abs_nonneg _).trans (hd 0)) (fun b => Comp.of_le (hd b)) a
  exact ((h1.mono (k' := 7) (by norm_num) le_rfl) hf).2

theorem rayOrigin_comp {q : Quat R} {c v : V3 R} {ε M B : ℝ} (hε : |quatNormSq (fl.quat q) - 1| ≤ ε)
    (hc : ∀ a, |fl.val (c a)| ≤ M) (hv : ∀ a, |fl.val (v a)| ≤ B) (a : Fin 3) :
    fl.Comp 15 (rotTight (1 + ε) fl.ω B + rotTight (1 + ε) fl.ω (transTight (1 + ε) fl.ω M))
      ((fromRotationAndCamcenter q c).cache.poseInv.transformPoint v a)
      ((fl.quat q).inverse.rotate (fl.vec v) a +
        (fl.quat q).inverse.rotate (-(fromRotationAndCamcenter (fl.quat q) (fl.vec c)).translation) a) := by
  have hn := quatNormSq_le hε
  have hq : quatNormSq (fl.quat q).inverse ≤ 1 + ε := by
    rw [quatNormSq_inverse]; exact hn
  have hM : 0 ≤ M := (abs_nonneg _).trans (hc 0)
  have h0 : 0 ≤ 1 + ε := by linarith [(abs_nonneg _).trans hε]
  have h1 := rotate_tight (v' := fl.vec v) (QExact.quat fl q).inverse hq ((abs_nonneg _).trans (hv 0))
    (fun b => Comp.of_le (hv b)) a
  have h2 := rotate_tight (v := V3.neg (fromRotationAndCamcenter q c).translation)
    (v' := V3.neg (fromRotationAndCamcenter (fl.quat q) (fl.vec c)).translation) (QExact.quat fl q).inverse hq
    (transTight_nonneg (fl := fl) h0 hM) (fun b => (translation_tight (rotation_tight hn) hc b).neg) a
  exact (h1.mono (k' := 14) (by norm_num) le_rfl).add h2

theorem rayOrigin_tight {q : Quat R} {c v : V3 R} {ε M B : ℝ} (hε : |quatNormSq (fl.quat q) - 1| ≤ ε)
    (hc : ∀ a, |fl.val (c a)| ≤ M) (hv : ∀ a, |fl.val (v a)| ≤ B) (a : Fin 3)
    (hf : fl.isFinite ((fromRotationAndCamcenter q c).cache.poseInv.transformPoint v a)) :
    |fl.val ((fromRotationAndCamcenter q c).cache.poseInv.transformPoint v a) -
      ((fl.quat q).inverse.rotate (fl.vec v) a +
        (fl.quat q).inverse.rotate (-(fromRotationAndCamcenter (fl.quat q) (fl.vec c)).translation) a)| ≤
      ((1 + fl.u) ^ 15 - 1) *
        (rotTight (1 + ε) fl.ω B + rotTight (1 + ε) fl.ω (transTight (1 + ε) fl.ω M)) :=
  (rayOrigin_comp hε hc hv a hf).2

theorem rayCenter_tight {q : Quat R} {c : V3 R} {ε M : ℝ} (hε : |quatNormSq (fl.quat q) - 1| ≤ ε)
    (hc : ∀ a, |fl.val (c a)| ≤ M) (a : Fin 3)
    (hf : fl.isFinite ((fromRotationAndCamcenter q c).cache.poseInv.transformPoint (fun _ => Scalar.lit 0) a)) :
    |fl.val ((fromRotationAndCamcenter q c).cache.poseInv.transformPoint (fun _ => Scalar.lit 0) a) -
      (fl.quat q).inverse.rotate (-(fromRotationAndCamcenter (fl.quat q) (fl.vec c)).translation) a| ≤
      ((1 + fl.u) ^ 15 - 1) *
        (rotTight (1 + ε) fl.ω 0 + rotTight (1 + ε) fl.ω (transTight (1 + ε) fl.ω M)) := by
  have h := rayOrigin_tight hε hc (v := fun _ => Scalar.lit 0) (B := 0)
    (fun _ => by rw [fl.lit_zero.2, abs_zero]) a hf
  have e : fl.vec (fun _ => Scalar.lit 0 : V3 R) = 0 := funext fun _ => fl.lit_zero.2
  rw [e, rotate_zero, Pi.zero_apply, _root_.zero_add] at h
  exact h

theorem trip_exact {q : Quat ℝ} {ε : ℝ} (h : |quatNormSq q - 1| ≤ ε) (h1 : ε ≤ 1 / 4) (t y p : Vec) :
    len (q.rotate p + t - y) ≤ (1 + 3 * ε) * len (p - q.inverse.rotate (y - t)) + 5 * ε * len (y - t) := by
  have c : |quatNormSq q.inverse - 1| ≤ ε := by rw [quatNormSq_inverse]; exact h
  have e := len_defect_le c h1 (y - t)
  rw [inverse_inverse] at e
  have e' : q.rotate p + t - y = q.rotate (p - q.inverse.rotate (y - t)) +
      (q.rotate (q.inverse.rotate (y - t)) - (y - t)) := by
    rw [rotate_sub]; abel
  rw [e']
  exact (len_add_le _ _).trans (add_le_add (len_rotate_le h _) e)

/-- The camera coordinates of a point. -/
theorem worldToCamera_tight {q : Quat R} {c : V3 R} {m : ℕ} {ε M B : ℝ} (hε : |quatNormSq (fl.quat q) - 1| ≤ ε)
    (hc : ∀ a, |fl.val (c a)| ≤ M) (w : Points WorldFrame R m) (i : Fin m) (hw : ∀ a, |fl.val (w.data i a)| ≤ B)
    (a : Fin 3) (hf : fl.isFinite (((fromRotationAndCamcenter q c).worldToCamera w).data i a)) :
    |fl.val (((fromRotationAndCamcenter q c).worldToCamera w).data i a) -
      ((fromRotationAndCamcenter (fl.quat q) (fl.vec c)).worldToCamera ⟨fun i => fl.vec (w.data i)⟩).data i a| ≤
      ((1 + fl.u) ^ 8 - 1) * (rotTight (1 + ε) fl.ω B + transTight (1 + ε) fl.ω M) := by
  have hn := quatNormSq_le hε
  rw [worldToCamera_data] at hf
  rw [worldToCamera_data, worldToCamera_data]
  have h1 := rotate_tight (v' := fl.vec (w.data i)) (QExact.quat fl q) hn ((abs_nonneg _).trans (hw 0)) (fun b => Comp.of_le (hw b)) a
  have h2 := translation_tight (rotation_tight hn) hc a
  exact (((h1.mono (k' := 7) (by norm_num) le_rfl).add h2) hf).2

/-- C49 with any bound `δ` for the error of the camera coordinates. -/
theorem worldToPixel_of_error {m : ℕ} (p : PerspectiveParams R) (q : Quat R) (c : V3 R) (w : Points WorldFrame R m)
    (i : Fin m) (X : V3 ℝ) {δ : ℝ}
    (hX : ∀ b, fl.isFinite (((fromRotationAndCamcenter q c).worldToCamera w).data i b) →
      |fl.val (((fromRotationAndCamcenter q c).worldToCamera w).data i b) - X b| ≤ δ)
    (hZ : X 2 ≠ 0) (hδZ : δ ≤ |X 2| / 2) :
    (fl.isFinite (((Camera.mk (IntrinsicParametersPerspective.ofParams p)
        (fromRotationAndCamcenter q c)).worldToPixel w).data i 0) →
      |fl.val (((Camera.mk (IntrinsicParametersPerspective.ofParams p)
          (fromRotationAndCamcenter q c)).worldToPixel w).data i 0) -
        Spec.pinhole (fl.val p.fx) (fl.val p.fy) (fl.val p.skew) (fl.val p.cx) (fl.val p.cy) X 0| ≤
      ((1 + fl.u) ^ 4 - 1) * (2 * |fl.val p.fx| * (|X 0 / X 2| + 1) +
        2 * |fl.val p.skew| * (|X 1 / X 2| + 1) + |fl.val p.cx| + 6 * fl.ω / |X 2| + fl.ω) +
      2 * δ / |X 2| * (|fl.val p.fx| * (|X 0 / X 2| + 1) + |fl.val p.skew| * (|X 1 / X 2| + 1))) ∧
    (fl.isFinite (((Camera.mk (IntrinsicParametersPerspective.ofParams p)
        (fromRotationAndCamcenter q c)).worldToPixel w).data i 1) →
      |fl.val (((Camera.mk (IntrinsicParametersPerspective.ofParams p)
          (fromRotationAndCamcenter q c)).worldToPixel w).data i 1) -
        Spec.pinhole (fl.val p.fx) (fl.val p.fy) (fl.val p.skew) (fl.val p.cx) (fl.val p.cy) X 1| ≤
      ((1 + fl.u) ^ 3 - 1) * (2 * |fl.val p.fy| * (|X 1 / X 2| + 1) + |fl.val p.cy| +
        4 * fl.ω / |X 2| + fl.ω) +
      2 * δ / |X 2| * (|fl.val p.fy| * (|X 1 / X 2| + 1))) := by
  have main : ∀ a, fl.isFinite (((Camera.mk (IntrinsicParametersPerspective.ofParams p)
        (fromRotationAndCamcenter q c)).worldToPixel w).data i a) → ∀ b,
      |fl.val (((fromRotationAndCamcenter q c).worldToCamera w).data i b) - X b| ≤ δ := fun a ha b =>
    hX b (persp_finite fl p ((fromRotationAndCamcenter q c).worldToCamera w) i a ha b)
  obtain ⟨hu, hv⟩ := c48_perspective fl p ((fromRotationAndCamcenter q c).worldToCamera w) i _ _ _
    rfl rfl rfl
  have p3 : 0 ≤ (1 + fl.u) ^ 3 - 1 := by linarith [one_le_pow fl 3]
  have p4 : 0 ≤ (1 + fl.u) ^ 4 - 1 := by linarith [one_le_pow fl 4]
  have hω := fl.ω_nonneg
  constructor
  · intro hf
    have m := main 0 hf
    have h := pixel_combine hZ hδZ (m 0) (m 1) (m 2) p4 hω (by norm_num) (hu hf).2
    refine (le_of_eq ?_).trans (h.trans (le_of_eq ?_))
    · congr 2
    · ring
  · intro hf
    have m := main 1 hf
    have h0 := (hv hf).2
    have h := pixel_combine (f := fl.val p.fy) (s := 0) (m := 2) hZ hδZ (m 1) (m 1) (m 2) p3 hω
      (by norm_num) (by simpa using h0)
    refine (le_of_eq ?_).trans (h.trans (le_of_eq ?_))
    · congr 2
      simp [Spec.pinhole]
    · rw [abs_zero]; ring

end CamGeom

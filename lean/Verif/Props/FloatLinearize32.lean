import Verif.Props.FloatLinearize
import Verif.Props.FloatTriangulation32

/-!
# C100: the camera matrix and the Jacobian in `f32`

C87 in single precision, with the smaller ranges that single precision requires.
-/

namespace CamGeom
open Rounding ExtrinsicParameters Spec Matrix

variable {lib : Libm Format.b32} {F M : ℝ}

theorem f32_pow_le {n : ℕ} (hn : n ≤ 50) : (1 + Format.b32.u) ^ n - 1 ≤ (n + 1) * Format.b32.u := by
  have h0 : (0 : ℝ) ≤ Format.b32.u := by rw [Format.u_b32]; positivity
  have hn' : (n : ℝ) ≤ 50 := by exact_mod_cast hn
  have hu : Format.b32.u ≤ 1 / 2500 := by rw [Format.u_b32]; norm_num
  have := pow_le_quadratic h0 n (by nlinarith)
  have : ((n : ℝ) * Format.b32.u) ^ 2 ≤ 2500 * Format.b32.u * Format.b32.u := by
    have hn0 : (0 : ℝ) ≤ n := n.cast_nonneg
    have : (n : ℝ) ^ 2 ≤ 2500 := by nlinarith
    nlinarith [sq_nonneg Format.b32.u]
  nlinarith

/-- Size of the cached translation. -/
theorem f32_transMag (hM0 : 0 ≤ M) (hM : M ≤ 2 ^ 8) :
    transMag (1 + 1 / 10 ^ 6) Format.b32.ω M ≤ 12.01 * M + 1 / 10 ^ 6 := by
  have ω1 := Format.ω_b32.le
  have ω2 : Format.b32.ω ≤ 1 / 10 ^ 10 := ω1.trans (by norm_num)
  have ω0 := Format.b32.ω_pos
  unfold transMag
  have : Format.b32.ω * (18 * M + 3) ≤ 1 / 10 ^ 10 * (18 * 2 ^ 8 + 3) := by gcongr
  norm_num at this ⊢
  nlinarith

/-- The hypotheses of C100: an `f32` camera in ordinary ranges.  `F` bounds the intrinsic parameters, `M` the coordinates
of the camera centre, and the depth `T` of the world origin is not tiny. -/
structure MatrixRange32 (p : PerspectiveParams (F32 lib)) (q : Quat (F32 lib)) (c : V3 (F32 lib)) (F M T : ℝ) : Prop where
  one_le : 1 ≤ F
  le : F ≤ 2 ^ 12
  nonneg : 0 ≤ M
  scene : M ≤ 2 ^ 8
  params : ∀ x ∈ [p.fx, p.fy, p.skew, p.cx, p.cy], Flt.Bounded (f := .b32) F x
  rotation : NearUnit lib (1 / 10 ^ 6) q
  centre : ∀ a, Flt.Bounded (f := .b32) M (c a)
  depth : T = (fromRotationAndCamcenter ((RustFloat.rounding .b32 lib).quat q)
    ((RustFloat.rounding .b32 lib).vec c)).translation 2
  away : 1 / 100 * (1 + M) ≤ |T|

namespace MatrixRange32

variable {p : PerspectiveParams (F32 lib)} {q : Quat (F32 lib)} {c : V3 (F32 lib)} {T : ℝ}

theorem qcomp (h : MatrixRange32 p q c F M T) :
    QComp (RustFloat.rounding .b32 lib) 0 (1 + 1 / 10 ^ 6) q ((RustFloat.rounding .b32 lib).quat q) := by
  obtain ⟨q1, q2, q3, q4⟩ := h.rotation.comps
  exact QComp.of_val _ q1 q2 q3 q4

theorem kqt_range (h : MatrixRange32 p q c F M T) (a : Fin 3) (b : Fin 4) :
    InRange (RustFloat.rounding .b32 lib) 29
      (Mat.mul3 (IntrinsicParametersPerspective.ofParams p).asIntrinsicsMatrix
        (fromRotationAndCamcenter q c).cache.qt a b) :=
  CamGeom.kqt_range (m := 12) (k := 8) (RustFloat.range .b32 lib) p (fun x hx => (h.params x hx).inRange h.le)
    (h.rotation.inRange (by norm_num)) (fun a => (h.centre a).inRange h.scene) (by
      show 12 + 8 + 9 ≤ 127
      norm_num) a b

theorem rotation_tight (h : MatrixRange32 p q c F M T) (a b : Fin 3) :
    (RustFloat.rounding .b32 lib).Comp 4 1.001 (q.toRotationMatrix a b)
      (((RustFloat.rounding .b32 lib).quat q).toRotationMatrix a b) := by
  have ω1 : (RustFloat.rounding .b32 lib).ω ≤ 1 / 10 ^ 30 := Format.ω_b32.le.trans (by norm_num)
  have h1 := (abs_le.1 h.rotation.quatNormSq).2
  refine (CamGeom.rotation_tight (n := 1 + 1 / 10 ^ 6) (by linarith) a b).mono le_rfl ?_
  norm_num at ω1 ⊢
  linarith

theorem translation_tight (h : MatrixRange32 p q c F M T) (a : Fin 3) :
    (RustFloat.rounding .b32 lib).Comp 7 (3.01 * M + 1 / 10 ^ 6) ((fromRotationAndCamcenter q c).translation a)
      ((fromRotationAndCamcenter ((RustFloat.rounding .b32 lib).quat q)
        ((RustFloat.rounding .b32 lib).vec c)).translation a) := by
  have ω1 : (RustFloat.rounding .b32 lib).ω ≤ 1 / 10 ^ 30 := Format.ω_b32.le.trans (by norm_num)
  have hM := h.nonneg
  refine (CamGeom.translation_tight h.rotation_tight (fun i => (h.centre i).2) a).mono le_rfl ?_
  norm_num at ω1 ⊢
  linarith

/-- The divisor. -/
theorem divisor (h : MatrixRange32 p q c F M T) :
    |(RustFloat.rounding .b32 lib).val (Mat.mul3 (IntrinsicParametersPerspective.ofParams p).asIntrinsicsMatrix
        (fromRotationAndCamcenter q c).cache.qt 2 3) - T| ≤ 1 / 10 ^ 5 * (1 + M) := by
  obtain ⟨g1, g2⟩ := kqt_23_exact (h.kqt_range 2 3).1
  rw [g2, h.depth]
  have e := (h.qcomp.translation' (c := c) (c' := (RustFloat.rounding .b32 lib).vec c)
    (fun i => Comp.of_le (h.centre i).2) 2 g1).2
  refine e.trans ?_
  have t := f32_transMag h.nonneg h.scene
  have p7 := f32_pow_le (n := 7) (by norm_num)
  have hM := h.nonneg
  refine (mul_le_mul p7 t ?_ ?_).trans ?_
  · have := Format.b32.ω_pos
    show 0 ≤ transMag _ Format.b32.ω M
    unfold transMag; positivity
  · rw [Format.u_b32]; positivity
  · rw [Format.u_b32]; norm_num; nlinarith

theorem divisor_low (h : MatrixRange32 p q c F M T) :
    |T| / 2 ≤ |(RustFloat.rounding .b32 lib).val (Mat.mul3
      (IntrinsicParametersPerspective.ofParams p).asIntrinsicsMatrix (fromRotationAndCamcenter q c).cache.qt 2 3)| ∧
    1 / 2 ^ 8 ≤ |(RustFloat.rounding .b32 lib).val (Mat.mul3
      (IntrinsicParametersPerspective.ofParams p).asIntrinsicsMatrix (fromRotationAndCamcenter q c).cache.qt 2 3)| := by
  have h1 := h.divisor
  have h2 := h.away
  have hM := h.nonneg
  have h3 := abs_sub_abs_le_abs_sub T ((RustFloat.rounding .b32 lib).val (Mat.mul3
      (IntrinsicParametersPerspective.ofParams p).asIntrinsicsMatrix (fromRotationAndCamcenter q c).cache.qt 2 3))
  rw [abs_sub_comm] at h3
  constructor
  · norm_num at h1 h2 ⊢; linarith
  · norm_num at h1 h2 ⊢; linarith

theorem divisor_high (h : MatrixRange32 p q c F M T) :
    |(RustFloat.rounding .b32 lib).val (Mat.mul3
      (IntrinsicParametersPerspective.ofParams p).asIntrinsicsMatrix (fromRotationAndCamcenter q c).cache.qt 2 3)| ≤
      14 * (1 + M) := by
  obtain ⟨q1, q2, q3, q4⟩ := h.rotation.comps
  have h1 := h.divisor
  have hM := h.nonneg
  have h2 := trans_le (q := (RustFloat.rounding .b32 lib).quat q) q1 q2 q3 q4
    (c := (RustFloat.rounding .b32 lib).vec c) (fun i => (h.centre i).2) 2
  rw [← h.depth] at h2
  have h3 := abs_add_le ((RustFloat.rounding .b32 lib).val (Mat.mul3
      (IntrinsicParametersPerspective.ofParams p).asIntrinsicsMatrix
        (fromRotationAndCamcenter q c).cache.qt 2 3) - T) T
  rw [sub_add_cancel] at h3
  norm_num at h1 h2 ⊢
  nlinarith

theorem matrix_range (h : MatrixRange32 p q c F M T) (flip : Bool) (a : Fin 3) (b : Fin 4) :
    let m := Mat.mul3 (IntrinsicParametersPerspective.ofParams p).asIntrinsicsMatrix
        (fromRotationAndCamcenter q c).cache.qt
    InRange (RustFloat.rounding .b32 lib) 37
      (Mat.divScalar (if flip then Mat.neg m else m) ((if flip then Mat.neg m else m) 2 3) a b) :=
  divided_range (RustFloat.range .b32 lib) flip h.kqt_range h.divisor_low.2 (by
    show 29 + 8 ≤ 127
    norm_num) a b

theorem kqt_flip (h : MatrixRange32 p q c F M T) (flip : Bool) (a : Fin 3) (b : Fin 4) :
    let m := Mat.mul3 (IntrinsicParametersPerspective.ofParams p).asIntrinsicsMatrix
        (fromRotationAndCamcenter q c).cache.qt
    InRange (RustFloat.rounding .b32 lib) 29 ((if flip then Mat.neg m else m) a b) := by
  cases flip
  · exact h.kqt_range a b
  · exact (h.kqt_range a b).neg (RustFloat.range .b32 lib)

theorem entry_two_three (h : MatrixRange32 p q c F M T) :
    (RustFloat.rounding .b32 lib).Comp 10 (3.01 * M + 1 / 10 ^ 6)
      (Mat.mul3 (IntrinsicParametersPerspective.ofParams p).asIntrinsicsMatrix
        (fromRotationAndCamcenter q c).cache.qt 2 3) T := by
  have := (row2_comp (p := p) h.rotation_tight h.translation_tight).2
  rw [row2_real] at this
  rw [h.depth]
  exact this

theorem depth_le (h : MatrixRange32 p q c F M T) : |T| ≤ 3.1 * (1 + M) := by
  have hM := h.nonneg
  have := (h.entry_two_three (h.kqt_range 2 3).1).1
  refine this.trans ?_
  norm_num
  linarith

theorem entry (h : MatrixRange32 p q c F M T) (a : Fin 3) (b : Fin 4) :
    (RustFloat.rounding .b32 lib).Comp 10 (9.1 * F * M + 3.1 * F)
      (Mat.mul3 (IntrinsicParametersPerspective.ofParams p).asIntrinsicsMatrix
        (fromRotationAndCamcenter q c).cache.qt a b)
      (Mat.mul3 (IntrinsicParametersPerspective.ofParams ((RustFloat.rounding .b32 lib).params p)).asIntrinsicsMatrix
        (fromRotationAndCamcenter ((RustFloat.rounding .b32 lib).quat q)
          ((RustFloat.rounding .b32 lib).vec c)).cache.qt a b) := by
  have ω1 : (RustFloat.rounding .b32 lib).ω ≤ 1 / 10 ^ 30 := Format.ω_b32.le.trans (by norm_num)
  have hM := h.nonneg
  have hF := h.one_le
  have hFM : 0 ≤ F * M := by positivity
  have hK : ∀ j, (RustFloat.rounding .b32 lib).Comp 0 F
      ((IntrinsicParametersPerspective.ofParams p).asIntrinsicsMatrix a j)
      ((IntrinsicParametersPerspective.ofParams ((RustFloat.rounding .b32 lib).params p)).asIntrinsicsMatrix a j) :=
    fun j => intrinsics_comp hF (h.params p.fx (by simp)).2 (h.params p.fy (by simp)).2
    (h.params p.skew (by simp)).2 (h.params p.cx (by simp)).2 (h.params p.cy (by simp)).2 a j
  have r := fun b => (kr_comp (c := c) h.rotation_tight a hK b).mono (B' := 9.1 * F * M + 3.1 * F) le_rfl (by
    norm_num at ω1 ⊢
    linarith)
  refine Fin.lastCases ?_ r b
  refine (kt_comp h.translation_tight a hK).mono le_rfl ?_
  norm_num at ω1 ⊢
  nlinarith

end MatrixRange32

/-- C100: `as_camera_matrix` of an `f32` camera in ordinary ranges is finite and accurate. -/
theorem c100_f32_camera_matrix {p : PerspectiveParams (F32 lib)} {q : Quat (F32 lib)} {c : V3 (F32 lib)} {T : ℝ}
    (h : MatrixRange32 p q c F M T)
    (cam : Camera (F32 lib) (IntrinsicParametersPerspective (F32 lib)))
    (hcam : cam = ⟨.ofParams p, fromRotationAndCamcenter q c⟩)
    (exact : Camera ℝ (IntrinsicParametersPerspective ℝ))
    (hexact : exact = ⟨.ofParams ((RustFloat.rounding .b32 lib).params p),
      fromRotationAndCamcenter ((RustFloat.rounding .b32 lib).quat q) ((RustFloat.rounding .b32 lib).vec c)⟩)
    (a : Fin 3) (b : Fin 4) :
    Flt.isFinite (f := .b32) (cam.asCameraMatrix a b) ∧
    |Flt.val (f := .b32) (cam.asCameraMatrix a b) - exact.asCameraMatrix a b| ≤
      1 / 10 ^ 4 * F * ((1 + M) / |T|) ^ 2 := by
  subst hcam hexact
  set fl := RustFloat.rounding .b32 lib with hfl
  have hM := h.nonneg
  have hF := h.one_le
  have hfin : fl.isFinite ((Camera.mk (IntrinsicParametersPerspective.ofParams p)
      (fromRotationAndCamcenter q c)).asCameraMatrix a b) := (h.matrix_range _ a b).1
  refine ⟨hfin, ?_⟩
  have ω1 : fl.ω ≤ 1 / 10 ^ 30 := Format.ω_b32.le.trans (by norm_num)
  have hT : 1 / 100 * (1 + M) ≤ |T| := h.away
  have hTp : 0 < |T| := lt_of_lt_of_le (by positivity) hT
  have p10 : (1 + fl.u) ^ 10 - 1 ≤ 1 / 10 ^ 6 := by
    show (1 + Format.b32.u) ^ 10 - 1 ≤ _
    rw [Format.u_b32]; norm_num
  have p11 : (1 + fl.u) ^ 11 - 1 ≤ 7 / 10 ^ 7 := by
    show (1 + Format.b32.u) ^ 11 - 1 ≤ _
    rw [Format.u_b32]; norm_num
  have hs := h.entry_two_three
  have hTv := h.depth_le
  rw [asCameraMatrix_apply, row2_real]
  change |fl.val ((Camera.mk (IntrinsicParametersPerspective.ofParams p)
      (fromRotationAndCamcenter q c)).asCameraMatrix a b) - _ /
      (fromRotationAndCamcenter (fl.quat q) (fl.vec c)).translation 2| ≤ _
  rw [← h.depth]
  have key := divided_comp (m := Mat.mul3 (IntrinsicParametersPerspective.ofParams p).asIntrinsicsMatrix
        (fromRotationAndCamcenter q c).cache.qt) (X := Mat.mul3 (IntrinsicParametersPerspective.ofParams
        (fl.params p)).asIntrinsicsMatrix (fromRotationAndCamcenter (fl.quat q) (fl.vec c)).cache.qt) _ a b
    (h.entry a b) hs (abs_pos.1 hTp) (by
      have : ((1 + fl.u) ^ 10 - 1) * (3.01 * M + 1 / 10 ^ 6) ≤ 1 / 10 ^ 6 * (3.01 * M + 1 / 10 ^ 6) := by gcongr
      refine this.trans ?_
      norm_num at hT ⊢
      linarith) (h.kqt_flip _ 2 3).1 hfin
  refine key.trans ?_
  have r := divided_round (ω := fl.ω) (T := T) (F := F) (v := 1 + M) (N := 9.1 * F * M + 3.1 * F)
    (H := 3.01 * M + 1 / 10 ^ 6) hF (by linarith) hTp (ω1.trans (by norm_num)) (by positivity)
    (by
      have : 0 ≤ F * M := by positivity
      norm_num; linarith) (by norm_num; linarith) hTv
  have pos : 0 ≤ F * ((1 + M) / |T|) ^ 2 := mul_nonneg (by linarith) (sq_nonneg _)
  calc _ ≤ ((1 + fl.u) ^ 11 - 1) * (128 * (F * ((1 + M) / |T|) ^ 2)) :=
        mul_le_mul_of_nonneg_left r (by linarith [one_le_pow fl 11])
    _ ≤ 7 / 10 ^ 7 * (128 * (F * ((1 + M) / |T|) ^ 2)) := by gcongr
    _ ≤ 1 / 10 ^ 4 * (F * ((1 + M) / |T|) ^ 2) := by norm_num; linarith
    _ = _ := by ring

/-- Arithmetic for `f32_jacobian`: magnitudes in units of the divisor. -/
theorem f32_mags {ω S r t : ℝ} (hω0 : 0 ≤ ω) (hω : ω ≤ 1 / 10 ^ 30) (hM0 : 0 ≤ M) (hM : M ≤ 2 ^ 8) (hF : 1 ≤ F)
    (hS : 0 < |S|) (hS' : |S| ≤ 14 * (1 + M)) {α β : ℝ} (hr : r ≤ α * F) (ht : t ≤ β * F * M + F / 10) :
    r / |S| + ω ≤ (α + 1 / 10) * F / |S| ∧
    3 * ((r / |S| + ω) * M + ω) + (t / |S| + ω) ≤ ((3 * α + β + 1 / 10) * M + 1) * F / |S| := by
  have hSω : ω * |S| ≤ 1 / 10 ^ 20 := by
    have : ω * |S| ≤ 1 / 10 ^ 30 * (14 * (1 + 2 ^ 8)) := by gcongr; linarith
    exact this.trans (by norm_num)
  have hSω0 : 0 ≤ ω * |S| := by positivity
  have hMω : ω * |S| * M ≤ 1 / 10 ^ 10 := by
    have : ω * |S| * M ≤ 1 / 10 ^ 20 * 2 ^ 8 := by gcongr
    exact this.trans (by norm_num)
  constructor
  · rw [le_div_iff₀ hS, add_mul, div_mul_cancel₀ _ hS.ne']
    norm_num at hSω ⊢
    nlinarith
  · rw [le_div_iff₀ hS]
    have e : (3 * ((r / |S| + ω) * M + ω) + (t / |S| + ω)) * |S| =
        3 * (r * M) + 3 * (ω * |S| * M) + 4 * (ω * |S|) + t := by
      field_simp
      ring
    rw [e]
    have h1 : r * M ≤ α * F * M := by gcongr
    have h2 : 0 ≤ F * M := by positivity
    norm_num at hSω hMω ⊢
    nlinarith

set_option maxHeartbeats 800000 in
/-- The Jacobian computed from a matrix `m` with the accuracy of `K [R | t]`, after division by its last entry. -/
theorem f32_jacobian {m : Mat 3 4 (F32 lib)} {X : Fin 3 → Fin 4 → ℝ} (hF : 1 ≤ F) (hM0 : 0 ≤ M) (hM : M ≤ 2 ^ 8)
    (a : Fin 3)
    (h2 : ∀ b : Fin 3, (RustFloat.rounding .b32 lib).Comp 10 1.01 (m 2 b.castSucc) (X 2 b.castSucc))
    (h23 : (RustFloat.rounding .b32 lib).Comp 10 (3.01 * M + 1 / 10 ^ 6) (m 2 3) (X 2 3))
    (ha : ∀ b : Fin 3, (RustFloat.rounding .b32 lib).Comp 10 (3.01 * F) (m a b.castSucc) (X a b.castSucc))
    (ha3 : (RustFloat.rounding .b32 lib).Comp 10 (9.1 * F * M + F / 10) (m a 3) (X a 3))
    (hm : ∀ a b, InRange (RustFloat.rounding .b32 lib) 29 (m a b)) (S : ℝ)
    (hS : S = (RustFloat.rounding .b32 lib).val (m 2 3)) (hS1 : 1 / 2 ^ 8 ≤ |S|) (hS2 : |S| ≤ 14 * (1 + M))
    (x : V3 (F32 lib)) (hx : ∀ b, Flt.Bounded (f := .b32) M (x b)) (Z : ℝ)
    (hZ : Z = homImage X ((RustFloat.rounding .b32 lib).vec x) 2) (hZ1 : 1 / 100 * (1 + M) ≤ |Z|)
    (P : Mat 3 4 (F32 lib)) (hP : ∀ a b, P a b = m a b / m 2 3) (d : F32 lib)
    (hd : d = P 2 0 * x 0 + P 2 1 * x 1 + P 2 2 * x 2 + P 2 3) (b : Fin 3) :
    (RustFloat.rounding .b32 lib).isFinite (-P 2 b.castSucc * Scalar.powi d (-2) *
      (P a 0 * x 0 + P a 1 * x 1 + P a 2 * x 2 + P a 3) + P a b.castSucc / d) ∧
    |(RustFloat.rounding .b32 lib).val (-P 2 b.castSucc * Scalar.powi d (-2) *
      (P a 0 * x 0 + P a 1 * x 1 + P a 2 * x 2 + P a 3) + P a b.castSucc / d) -
      (X a b.castSucc / Z - homImage X ((RustFloat.rounding .b32 lib).vec x) a * X 2 b.castSucc / Z ^ 2)| ≤
      1 / 100 * F * (1 + M) ^ 2 / |Z| ^ 3 := by
  set fl := RustFloat.rounding .b32 lib with hfl
  have hω : fl.ω = Format.b32.ω := rfl
  have hu : fl.u = Format.b32.u := rfl
  have ω0 : 0 ≤ fl.ω := fl.ω_nonneg
  have ω1 : fl.ω ≤ 1 / 10 ^ 30 := by rw [hω]; exact Format.ω_b32.le.trans (by norm_num)
  have hSp : 0 < |S| := lt_of_lt_of_le (by positivity) hS1
  have hS0 : S ≠ 0 := abs_pos.1 hSp
  have hv : 1 ≤ 1 + M := by linarith
  have hZp : 0 < |Z| := lt_of_lt_of_le (by positivity) hZ1
  have hZ0 : Z ≠ 0 := abs_pos.1 hZp
  -- magnitudes
  obtain ⟨m1, m2⟩ := f32_mags (F := 1) (α := 1.01) (β := 3.01) (r := 1.01) (t := 3.01 * M + 1 / 10 ^ 6) ω0 ω1 hM0 hM
    le_rfl hSp hS2 (by norm_num) (by norm_num)
  obtain ⟨m3, m4⟩ := f32_mags (F := F) (α := 3.01) (β := 9.1) (r := 3.01 * F) (t := 9.1 * F * M + F / 10) ω0 ω1 hM0
    hM hF hSp hS2 le_rfl le_rfl
  set b₂ := 1.01 / |S| + fl.ω with hb₂
  set h₂ := 3 * (b₂ * M + fl.ω) + ((3.01 * M + 1 / 10 ^ 6) / |S| + fl.ω) with hh₂
  set b₀ := 3.01 * F / |S| + fl.ω with hb₀
  set h₀ := 3 * (b₀ * M + fl.ω) + ((9.1 * F * M + F / 10) / |S| + fl.ω) with hh₀
  have b₂0 : 0 ≤ b₂ := by positivity
  have h₂0 : 0 ≤ h₂ := by positivity
  have b₀0 : 0 ≤ b₀ := by positivity
  have h₀0 : 0 ≤ h₀ := by positivity
  have b₂1 : b₂ ≤ 6 / 5 / |S| := m1.trans (by gcongr; norm_num)
  have h₂1 : h₂ ≤ 7 * (1 + M) / |S| := m2.trans (div_le_div_of_nonneg_right (by norm_num; linarith) hSp.le)
  have b₀1 : b₀ ≤ 4 * F / |S| := m3.trans (by gcongr; norm_num)
  have h₀1 : h₀ ≤ 19 * F * (1 + M) / |S| := m4.trans (div_le_div_of_nonneg_right (f64_arith hF hM0) hSp.le)
  -- depth
  have hdep := depth_comp 2 h2 h23 (hm 2 3).1 S hS x (fun b => (hx b).2) P hP
  rw [← hb₂, ← hh₂, ← hZ, ← hd] at hdep
  have hPr : ∀ a b, InRange fl 37 (P a b) := fun a b => by
    rw [hP]
    exact (hm a b).div (l := 8) (RustFloat.range .b32 lib) (hm 2 3).1 (by rw [← hS]; exact hS1) (by
      show 29 + 8 ≤ 127
      norm_num)
  have hxr : ∀ a, InRange fl 8 (x a) := fun a => (hx a).inRange hM
  have htop : (RustFloat.range .b32 lib).top = 127 := rfl
  have hdr : InRange fl 48 d := by
    have t := fun (b : Fin 4) (j : Fin 3) => (hPr 2 b).mul (RustFloat.range .b32 lib) (hxr j) (by rw [htop]; norm_num)
    rw [hd]
    exact (((t 0 0).add _ (t 1 1) (by rw [htop]; norm_num)).add _ ((t 2 2).mono (by norm_num))
      (by rw [htop]; norm_num)).add _ ((hPr 2 3).mono (by norm_num)) (by rw [htop]; norm_num)
  have hA := hdep hdr.1
  have p15 := f32_pow_le (n := 15) (by norm_num)
  have p15' : ((1 + fl.u) ^ 15 - 1) ≤ 1 / 10 ^ 6 := by
    rw [hu]
    refine p15.trans ?_
    rw [Format.u_b32]
    norm_num
  have hδ : ((1 + fl.u) ^ 15 - 1) * h₂ ≤ |Z / S| / 2 := by
    have e1 : ((1 + fl.u) ^ 15 - 1) * h₂ ≤ 1 / 10 ^ 6 * (7 * (1 + M) / |S|) :=
      mul_le_mul p15' h₂1 h₂0 (by norm_num)
    refine e1.trans ?_
    rw [abs_div, ← mul_div_assoc, div_right_comm]
    refine div_le_div_of_nonneg_right ?_ hSp.le
    norm_num at hZ1 ⊢
    linarith
  have hDlow : |Z / S| / 2 ≤ |fl.val d| := by
    have := abs_sub_abs_le_abs_sub (Z / S) (fl.val d)
    rw [abs_sub_comm] at this
    linarith [hA.2]
  have hD2 : 1 / 2 ^ 11 ≤ |Z / S| := by
    rw [abs_div, div_le_div_iff₀ (by positivity) hSp]
    norm_num at hZ1 ⊢
    linarith
  have hd2 : 1 / 2 ^ 12 ≤ |fl.val d| := by
    refine le_trans ?_ hDlow
    norm_num at hD2 ⊢
    linarith
  have hddr : InRange fl 96 (d * d) := hdr.mul (RustFloat.range .b32 lib) hdr (by rw [htop]; norm_num)
  have hddl : 1 / 2 ^ 25 ≤ |fl.val (d * d)| := by
    have h1 := (fl.mul hddr.1).2.2
    have h2 : 1 / 2 ^ 24 ≤ fl.val d * fl.val d := by
      rw [← abs_mul_abs_self (fl.val d)]
      calc (1 : ℝ) / 2 ^ 24 = 1 / 2 ^ 12 * (1 / 2 ^ 12) := by norm_num
        _ ≤ _ := by gcongr
    have h3 : |fl.val d * fl.val d| = fl.val d * fl.val d := abs_of_nonneg (mul_self_nonneg _)
    have h4 := abs_sub_abs_le_abs_sub (fl.val d * fl.val d) (fl.val (d * d))
    rw [abs_sub_comm, h3] at h4
    rw [h3] at h1
    have h5 : fl.u * (fl.val d * fl.val d + fl.ω) ≤ 1 / 10 ^ 3 * (fl.val d * fl.val d + fl.ω) := by
      have : fl.u ≤ 1 / 10 ^ 3 := by rw [hu, Format.u_b32]; norm_num
      have := mul_self_nonneg (fl.val d)
      gcongr
    norm_num at h2 h5 ω1 ⊢
    linarith
  have hpw : InRange fl 25 (Scalar.powi d (-2)) := powi_range hddr.1 hddl (by rw [htop]; norm_num)
  have hfin := (jac_range (RustFloat.range .b32 lib) hPr hxr d hd hd2 hpw (by rw [htop]; norm_num) a b).1
  refine ⟨hfin, ?_⟩
  have key := jacobian_error (RustFloat.roundingPowi .b32 lib) a h2 h23 ha ha3 (hm 2 3).1 S hS hS0 x
    (fun b => (hx b).2) P hP Z hZ hZ0 b₂ h₂ b₀ h₀ hb₂ hb₀ hh₂ hh₀ hδ (by rw [← hd]; exact hddr.1) b
    (by rw [← hd]; exact hfin)
  rw [← hd] at key
  refine key.trans ?_
  -- round numbers
  have hZv : |Z| ≤ 7 * (1 + M) := by
    have h1 := hA.1.trans h₂1
    rw [abs_div] at h1
    exact (div_le_div_iff_of_pos_right hSp).1 h1
  have hZ2 : Z ^ 2 ≤ 10 ^ 16 := by
    rw [← sq_abs]
    have : |Z| ≤ 10 ^ 8 := by norm_num at hM ⊢; linarith
    calc |Z| ^ 2 ≤ (10 ^ 8) ^ 2 := by gcongr
      _ = _ := by norm_num
  have hZ2p : 0 < Z ^ 2 := by positivity
  have hmag := jacMag_le (ω := fl.ω) (S := S) (Z := Z) (F := F) (v := 1 + M) ω0 hF hv hSp hZp b₂1 h₂0 h₂1 b₀0 b₀1 h₀0 h₀1
    hZv (by
      rw [le_div_iff₀ hZ2p, ← sq_abs S]
      calc fl.ω * Z ^ 2 ≤ 1 / 10 ^ 30 * 10 ^ 16 := by gcongr
        _ ≤ (1 / 2 ^ 8) ^ 2 := by norm_num
        _ ≤ _ := by gcongr) (by
      rw [le_div_iff₀ hZ2p]
      calc fl.ω * Z ^ 2 ≤ 1 / 10 ^ 30 * 10 ^ 16 := by gcongr
        _ ≤ 1 / 2 ^ 8 := by norm_num
        _ ≤ _ := hS1) (by
      rw [le_div_iff₀ hZp]
      have : |Z| ≤ 10 ^ 8 := by norm_num at hM ⊢; linarith
      calc fl.ω * |Z| ≤ 1 / 10 ^ 30 * 10 ^ 8 := by gcongr
        _ ≤ 1 := by norm_num)
  have p44 : (1 + fl.u) ^ 44 - 1 ≤ 269 / 10 ^ 8 := by
    rw [hu]
    refine (f32_pow_le (n := 44) (by norm_num)).trans ?_
    rw [Format.u_b32]
    norm_num
  have pos : 0 ≤ F * (1 + M) ^ 2 / |Z| ^ 3 := by positivity
  calc _ ≤ ((1 + fl.u) ^ 44 - 1) * (2800 * F * (1 + M) ^ 2 / |Z| ^ 3) :=
        mul_le_mul_of_nonneg_left hmag (by linarith [one_le_pow fl 44])
    _ ≤ 269 / 10 ^ 8 * (2800 * F * (1 + M) ^ 2 / |Z| ^ 3) := by gcongr
    _ = 269 / 10 ^ 8 * 2800 * (F * (1 + M) ^ 2 / |Z| ^ 3) := by ring
    _ ≤ 1 / 100 * (F * (1 + M) ^ 2 / |Z| ^ 3) := by gcongr; norm_num
    _ = _ := by ring

/-- C100: `linearize_at` of an `f32` camera in ordinary ranges is finite and accurate: `Z` is the depth of the point. -/
theorem c100_f32_linearize {p : PerspectiveParams (F32 lib)} {q : Quat (F32 lib)} {c : V3 (F32 lib)} {T : ℝ}
    (h : MatrixRange32 p q c F M T)
    (cam : Camera (F32 lib) (IntrinsicParametersPerspective (F32 lib)))
    (hcam : cam = ⟨.ofParams p, fromRotationAndCamcenter q c⟩)
    (exact : Camera ℝ (IntrinsicParametersPerspective ℝ))
    (hexact : exact = ⟨.ofParams ((RustFloat.rounding .b32 lib).params p),
      fromRotationAndCamcenter ((RustFloat.rounding .b32 lib).quat q) ((RustFloat.rounding .b32 lib).vec c)⟩)
    (x : V3 (F32 lib)) (hx : ∀ a, Flt.Bounded (f := .b32) M (x a)) (Z : ℝ)
    (hZ : Z = homImage exact.extrinsics.matrix ((RustFloat.rounding .b32 lib).vec x) 2)
    (hZ1 : 1 / 100 * (1 + M) ≤ |Z|) (a : Fin 2) (b : Fin 3) :
    Flt.isFinite (f := .b32) ((JacobianPerspectiveCache.new cam).linearizeAt (.single x) a b) ∧
    |Flt.val (f := .b32) ((JacobianPerspectiveCache.new cam).linearizeAt (.single x) a b) -
      (JacobianPerspectiveCache.new exact).linearizeAt (.single ((RustFloat.rounding .b32 lib).vec x)) a b| ≤
      1 / 100 * F * (1 + M) ^ 2 / |Z| ^ 3 := by
  subst hcam hexact
  set fl := RustFloat.rounding .b32 lib with hfl
  have hM := h.nonneg
  have hF := h.one_le
  have ω0 : 0 ≤ fl.ω := fl.ω_nonneg
  have ω1 : fl.ω ≤ 1 / 10 ^ 30 := Format.ω_b32.le.trans (by norm_num)
  set X := Mat.mul3 (IntrinsicParametersPerspective.ofParams (fl.params p)).asIntrinsicsMatrix
        (fromRotationAndCamcenter (fl.quat q) (fl.vec c)).cache.qt with hX
  set m := Mat.mul3 (IntrinsicParametersPerspective.ofParams p).asIntrinsicsMatrix
        (fromRotationAndCamcenter q c).cache.qt with hm
  have hT0 : T ≠ 0 := by
    rw [← abs_pos]
    exact lt_of_lt_of_le (by positivity) h.away
  have hX23 : X 2 3 = T := by
    rw [hX, row2_real, h.depth]
    rfl
  have hZX : Z = homImage X (fl.vec x) 2 := by
    rw [hZ]
    simp only [homImage, Matrix.mulVec, dotProduct, Fin.sum_univ_four, Matrix.of_apply, Matrix.cons_val, hX, row2_real]
    rfl
  have hZ0 : Z ≠ 0 := by
    rw [← abs_pos]
    exact lt_of_lt_of_le (by positivity) hZ1
  have eX : (JacobianPerspectiveCache.new (Camera.mk (IntrinsicParametersPerspective.ofParams (fl.params p))
      (fromRotationAndCamcenter (fl.quat q) (fl.vec c)))).linearizeAt (.single (fl.vec x)) a b =
      X a.castSucc b.castSucc / Z - homImage X (fl.vec x) a.castSucc * X 2 b.castSucc / Z ^ 2 := by
    rw [hZX]
    refine linearizeAt_scaled hT0 (fun a b => ?_) _ (hZX ▸ hZ0) a b
    rw [jacobianCache_m, asCameraMatrix_apply, ← hX23]
  rw [eX]
  -- accuracy of the matrix before the division
  have hK : ∀ (a : Fin 3) j, fl.Comp 0 F ((IntrinsicParametersPerspective.ofParams p).asIntrinsicsMatrix a j)
      ((IntrinsicParametersPerspective.ofParams (fl.params p)).asIntrinsicsMatrix a j) := fun a j =>
    intrinsics_comp hF (h.params p.fx (by simp)).2 (h.params p.fy (by simp)).2 (h.params p.skew (by simp)).2
      (h.params p.cx (by simp)).2 (h.params p.cy (by simp)).2 a j
  have c2 := row2_comp (p := p) h.rotation_tight h.translation_tight
  have c2r : ∀ b : Fin 3, fl.Comp 10 1.01 (m 2 b.castSucc) (X 2 b.castSucc) := fun b =>
    (c2.1 b).mono le_rfl (by norm_num)
  have c2t : fl.Comp 10 (3.01 * M + 1 / 10 ^ 6) (m 2 3) (X 2 3) := c2.2
  have car : ∀ b : Fin 3, fl.Comp 10 (3.01 * F) (m a.castSucc b.castSucc) (X a.castSucc b.castSucc) := fun b =>
    (kr_comp h.rotation_tight a.castSucc (hK a.castSucc) b).mono le_rfl (by
      norm_num at ω1 ⊢
      linarith)
  have cat : fl.Comp 10 (9.1 * F * M + F / 10) (m a.castSucc 3) (X a.castSucc 3) :=
    (kt_comp h.translation_tight a.castSucc (hK a.castSucc)).mono le_rfl (by
      have hFM : 0 ≤ F * M := by positivity
      norm_num at ω1 ⊢
      nlinarith)
  have low := h.divisor_low.2
  have high := h.divisor_high
  rw [← hm, ← hfl] at low high
  have e : ∀ P : Mat 3 4 (F32 lib), (JacobianPerspectiveCache.mk P).linearizeAt (.single x) a b =
      -P 2 b.castSucc * Scalar.powi (P 2 0 * x 0 + P 2 1 * x 1 + P 2 2 * x 2 + P 2 3) (-2) *
      (P a.castSucc 0 * x 0 + P a.castSucc 1 * x 1 + P a.castSucc 2 * x 2 + P a.castSucc 3) +
      P a.castSucc b.castSucc / (P 2 0 * x 0 + P 2 1 * x 1 + P 2 2 * x 2 + P 2 3) := by
    intro P
    fin_cases a <;> fin_cases b <;> rfl
  have unf : JacobianPerspectiveCache.new (Camera.mk (IntrinsicParametersPerspective.ofParams p)
      (fromRotationAndCamcenter q c)) = ⟨Mat.divScalar (if Scalar.lt (m 0 0) 0 then Mat.neg m else m)
        ((if Scalar.lt (m 0 0) 0 then Mat.neg m else m) 2 3)⟩ := rfl
  rw [unf, e]
  rcases Bool.eq_false_or_eq_true (Scalar.lt (m 0 0) 0) with hs | hs
  · -- flipped
    simp only [hs, if_true]
    have hn : ∀ a b, InRange fl 29 (Mat.neg m a b) := fun a b => (h.kqt_range a b).neg (RustFloat.range .b32 lib)
    have hv : fl.val (Mat.neg m 2 3) = -fl.val (m 2 3) := (fl.neg (hn 2 3).1).2
    have homn : ∀ a, homImage (fun a b => -X a b) (fl.vec x) a = -homImage X (fl.vec x) a := by
      intro a
      simp only [homImage, Matrix.mulVec, dotProduct, Fin.sum_univ_four, Matrix.of_apply, Matrix.cons_val]
      ring
    have key := f32_jacobian (m := Mat.neg m) (X := fun a b => -X a b) hF hM h.scene a.castSucc
      (fun b => (c2r b).neg) c2t.neg (fun b => (car b).neg) cat.neg hn (-fl.val (m 2 3)) hv.symm
      (by rw [abs_neg]; exact low) (by rw [abs_neg]; exact high) x hx (-Z) (by rw [homn, ← hZX])
      (by rw [abs_neg]; exact hZ1) (Mat.divScalar (Mat.neg m) (Mat.neg m 2 3)) (fun _ _ => rfl) _ rfl b
    rw [abs_neg, homn] at key
    refine ⟨key.1, le_of_eq_of_le ?_ key.2⟩
    congr 2
    field_simp
  · simp only [hs, Bool.false_eq_true, if_false]
    exact f32_jacobian (m := m) (X := X) hF hM h.scene a.castSucc c2r c2t car cat h.kqt_range (fl.val (m 2 3)) rfl
      low high x hx Z hZX hZ1 (Mat.divScalar m (m 2 3)) (fun _ _ => rfl) _ rfl b

/-- Focal lengths 5 and 7, skew 1, principal point (3, 2), no rotation, centre (0, 0, 8). -/
theorem sample_matrixRange32 : MatrixRange32 (lib := lib) ⟨digit32 lib 5, digit32 lib 7, digit32 lib 1, digit32 lib 3, digit32 lib 2⟩
    ⟨digit32 lib 1, digit32 lib 0, digit32 lib 0, digit32 lib 0⟩ ![digit32 lib 0, digit32 lib 0, digit32 lib 8] 7 9 (-8) := by
  have b : ∀ (k : Fin 10) {B : ℝ}, ((k : ℕ) : ℝ) ≤ B → Flt.Bounded (f := .b32) B (digit32 lib k) := fun k B hk =>
    ⟨trivial, by rw [val_digit32 lib, abs_of_nonneg (Nat.cast_nonneg _)]; exact hk⟩
  have v0 : (RustFloat.rounding .b32 lib).val (digit32 lib 0) = 0 := (val_digit32 lib _).trans (by norm_num)
  have v1 : (RustFloat.rounding .b32 lib).val (digit32 lib 1) = 1 := (val_digit32 lib _).trans (by norm_num)
  have v8 : (RustFloat.rounding .b32 lib).val (digit32 lib 8) = 8 := (val_digit32 lib _).trans (by norm_num)
  refine ⟨by norm_num, by norm_num, by norm_num, by norm_num, ?_, ⟨trivial, trivial, trivial, trivial, ?_⟩, ?_, ?_,
    by norm_num⟩
  · intro y hy
    simp only [List.mem_cons, List.not_mem_nil, or_false] at hy
    rcases hy with rfl | rfl | rfl | rfl | rfl <;> exact b _ (by norm_num)
  · show |(RustFloat.rounding .b32 lib).val (digit32 lib 1) ^ 2 + (RustFloat.rounding .b32 lib).val (digit32 lib 0) ^ 2 +
      (RustFloat.rounding .b32 lib).val (digit32 lib 0) ^ 2 + (RustFloat.rounding .b32 lib).val (digit32 lib 0) ^ 2 - 1| ≤ _
    rw [v1, v0]
    norm_num
  · intro a
    fin_cases a <;> exact b _ (by norm_num)
  · simp [fromRotationAndCamcenter, ExtrinsicParameters.translation, Rounding.quat, Rounding.vec, v0, v1, v8,
      Quat.toRotationMatrix, V3.neg, Mat.mulVec3]

/-- Non-vacuity of C100: the derivative at the point (3, 2, 9), which has depth 1. -/
example (cam : Camera (F32 lib) (IntrinsicParametersPerspective (F32 lib)))
    (hcam : cam = ⟨.ofParams ⟨digit32 lib 5, digit32 lib 7, digit32 lib 1, digit32 lib 3, digit32 lib 2⟩,
      fromRotationAndCamcenter ⟨digit32 lib 1, digit32 lib 0, digit32 lib 0, digit32 lib 0⟩
        ![digit32 lib 0, digit32 lib 0, digit32 lib 8]⟩) (a : Fin 2) (b : Fin 3) :
    Flt.isFinite (f := .b32) ((JacobianPerspectiveCache.new cam).linearizeAt
      (.single ![digit32 lib 3, digit32 lib 2, digit32 lib 9]) a b) := by
  have v : ∀ k, (RustFloat.rounding .b32 lib).val (digit32 lib k) = (k : ℕ) := val_digit32 lib
  refine (c100_f32_linearize sample_matrixRange32 cam hcam _ rfl _ (fun a => ?_) 1 ?_ (by norm_num) a b).1
  · have bd : ∀ (k : Fin 10), Flt.Bounded (f := .b32) 9 (digit32 lib k) := fun k =>
      ⟨trivial, by
        rw [val_digit32 lib, abs_of_nonneg (Nat.cast_nonneg _)]
        exact_mod_cast Nat.le_of_lt_succ k.isLt⟩
    fin_cases a <;> exact bd _
  · simp [homImage, Matrix.mulVec, dotProduct, Fin.sum_univ_four, fromRotationAndCamcenter,
      ExtrinsicParameters.matrix, Rounding.quat, Rounding.vec, v, Quat.toRotationMatrix, V3.neg, Mat.mulVec3]
    norm_num

end CamGeom

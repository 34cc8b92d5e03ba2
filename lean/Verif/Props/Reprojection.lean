import Verif.Props.FloatTriangulation32

/-!
# C107: reprojection of triangulated points in `f64` and `f32`
-/

namespace CamGeom
open Rounding ExtrinsicParameters Spec Matrix

/-- Slopes of nearby points. -/
theorem slope_near {X Y : Vec} {δ : ℝ} (h : ∀ a, |Y a - X a| ≤ δ) (hz : 0 < |X 2|) (hδ : 19 * δ ≤ |X 2|) (a : Fin 3)
    (hs : |X a / X 2| ≤ 9) : 18 / 19 * |X 2| ≤ |Y 2| ∧ |Y a / Y 2 - X a / X 2| ≤ 190 / 18 * δ / |X 2| := by
  have h2 := h 2
  have δ0 : 0 ≤ δ := (abs_nonneg _).trans h2
  have y2 : 18 / 19 * |X 2| ≤ |Y 2| := by
    have := abs_sub_abs_le_abs_sub (X 2) (Y 2)
    rw [abs_sub_comm] at this
    linarith
  refine ⟨y2, ?_⟩
  have hx0 : X 2 ≠ 0 := abs_pos.1 hz
  have hy0 : Y 2 ≠ 0 := abs_pos.1 (by linarith)
  have e : Y a / Y 2 - X a / X 2 = ((Y a - X a) - X a / X 2 * (Y 2 - X 2)) / Y 2 := by
    field_simp
    ring
  have n : |(Y a - X a) - X a / X 2 * (Y 2 - X 2)| ≤ 10 * δ := by
    have i1 := abs_sub (Y a - X a) (X a / X 2 * (Y 2 - X 2))
    have i2 : |X a / X 2 * (Y 2 - X 2)| ≤ 9 * δ := by
      rw [abs_mul]
      exact mul_le_mul hs h2 (abs_nonneg _) (by norm_num)
    have := h a
    linarith
  rw [e, abs_div, div_le_div_iff₀ (by linarith) hz]
  have i1 := mul_le_mul_of_nonneg_right n hz.le
  have i2 := mul_le_mul_of_nonneg_left y2 δ0
  linarith

section
variable {f : Format} {lib : Libm f}

/-- The exact images of nearby points. -/
theorem projection_near {o : Observation (RustFloat f lib)} {ε δ : ℝ} {x y : Vec}
    (hq : |quatNormSq ((RustFloat.rounding f lib).quat o.rotation) - 1| ≤ ε) (hε : ε ≤ 1 / 10 ^ 6)
    (hskew : |Flt.val (f := f) o.params.skew| ≤ |Flt.val (f := f) o.params.fx|) (hz : 0 < |o.position x 2|)
    (hs0 : |o.position x 0 / o.position x 2| ≤ 9) (hs1 : |o.position x 1 / o.position x 2| ≤ 9)
    (hd : distance y x ≤ δ) (hδ : 20 * δ ≤ |o.position x 2|) :
    94 / 100 * |o.position x 2| ≤ |o.position y 2| ∧ |o.position y 0 / o.position y 2| ≤ 10 ∧
    |o.position y 1 / o.position y 2| ≤ 10 ∧
    |o.projection y 0 - o.projection x 0| ≤ 22 * δ / |o.position x 2| * |Flt.val (f := f) o.params.fx| ∧
    |o.projection y 1 - o.projection x 1| ≤ 11 * δ / |o.position x 2| * |Flt.val (f := f) o.params.fy| := by
  set fl := RustFloat.rounding f lib with hfl
  have δ0 : 0 ≤ δ := (len_nonneg _).trans hd
  have hp : ∀ a, |o.position y a - o.position x a| ≤ 1001 / 1000 * δ := by
    intro a
    have e : o.position y - o.position x = (fl.quat o.rotation).rotate (y - x) := by
      rw [Observation.position, Observation.position, pose_apply, pose_apply, rotate_sub]
      abel
    rw [← Pi.sub_apply, e]
    refine (abs_apply_le_len _ a).trans ((len_rotate_le hq _).trans ?_)
    exact mul_le_mul (by norm_num at hε; linarith) hd (len_nonneg _) (by norm_num)
  obtain ⟨hy, h0⟩ := slope_near hp hz (by linarith) 0 hs0
  obtain ⟨-, h1⟩ := slope_near hp hz (by linarith) 1 hs1
  set Z := |o.position x 2| with hZ
  have dz : δ / Z ≤ 1 / 20 := by
    rw [div_le_iff₀ hz]
    linarith
  have dz0 : 0 ≤ δ / Z := div_nonneg δ0 hz.le
  have k : 190 / 18 * (1001 / 1000 * δ) / Z ≤ 106 / 10 * (δ / Z) := by
    rw [← mul_assoc, mul_div_assoc]
    exact mul_le_mul_of_nonneg_right (by norm_num) dz0
  have h0 := h0.trans k
  have h1 := h1.trans k
  have i0 := abs_sub_abs_le_abs_sub (o.position y 0 / o.position y 2) (o.position x 0 / o.position x 2)
  have i1 := abs_sub_abs_le_abs_sub (o.position y 1 / o.position y 2) (o.position x 1 / o.position x 2)
  refine ⟨by linarith, by linarith, by linarith, ?_, ?_⟩
  · have e : o.projection y 0 - o.projection x 0 =
        Flt.val (f := f) o.params.fx * (o.position y 0 / o.position y 2 - o.position x 0 / o.position x 2) +
        Flt.val (f := f) o.params.skew * (o.position y 1 / o.position y 2 - o.position x 1 / o.position x 2) := by
      simp only [Observation.projection, pinhole, Matrix.cons_val]
      ring
    rw [e, mul_div_assoc]
    refine (abs_add_le _ _).trans ?_
    rw [abs_mul, abs_mul]
    have j0 := mul_le_mul_of_nonneg_left h0 (abs_nonneg (Flt.val (f := f) o.params.fx))
    have j1 := mul_le_mul hskew h1 (abs_nonneg _) (abs_nonneg _)
    have j2 := mul_nonneg (abs_nonneg (Flt.val (f := f) o.params.fx)) dz0
    linarith
  · have e : o.projection y 1 - o.projection x 1 =
        Flt.val (f := f) o.params.fy * (o.position y 1 / o.position y 2 - o.position x 1 / o.position x 2) := by
      simp only [Observation.projection, pinhole, Matrix.cons_val]
      ring
    rw [e, mul_div_assoc, abs_mul]
    have j0 := mul_le_mul_of_nonneg_left h1 (abs_nonneg (Flt.val (f := f) o.params.fy))
    have j2 := mul_nonneg (abs_nonneg (Flt.val (f := f) o.params.fy)) dz0
    linarith

/-- The camera of an observation. -/
def Observation.camera {R : Type} [Scalar R] (o : Observation R) : Camera R (IntrinsicParametersPerspective R) :=
  ⟨IntrinsicParametersPerspective.ofParams o.params, fromRotationAndCamcenter o.rotation o.camcenter⟩

end

section
variable {lib : Libm Format.b64} {M δ σ : ℝ} {x : Vec} {o : Observation (F64 lib)}

/-- C107 in `f64`: the pixel computed for a point within `δ` of `x` is near the exact projection of `x`. -/
theorem c107_f64_near (g : GoodView M x o) (hM1 : 1 ≤ M) (hM2 : M ≤ 2 ^ 19) (hx : ∀ a, |x a| ≤ M)
    (hz : M / 50 ≤ |o.position x 2|) (hs0 : |o.position x 0 / o.position x 2| ≤ 9)
    (hs1 : |o.position x 1 / o.position x 2| ≤ 9) (pt : Points WorldFrame (F64 lib) 1)
    (hf : ∀ a, Flt.isFinite (f := .b64) (pt.data 0 a))
    (hd : distance (fun a => Flt.val (f := .b64) (pt.data 0 a)) x ≤ δ) (hδ : 20 * δ ≤ |o.position x 2|)
    (hδ' : 100 * δ ≤ M) (a : Fin 2) :
    Flt.isFinite (f := .b64) ((o.camera.worldToPixel pt).data 0 a) ∧
    |Flt.val (f := .b64) ((o.camera.worldToPixel pt).data 0 a) - o.projection x a| ≤
      (22 * δ / |o.position x 2| + 11 / 10 ^ 11) *
        |(![Flt.val (f := .b64) o.params.fx, Flt.val (f := .b64) o.params.fy] : Fin 2 → ℝ) a| := by
  set fl := RustFloat.rounding .b64 lib with hfl
  have hzp : 0 < |o.position x 2| := by linarith
  have δ0 : 0 ≤ δ := (len_nonneg _).trans hd
  obtain ⟨p1, p2, p3, p4, p5⟩ := projection_near g.rotation.quatNormSq (by norm_num) g.skew hzp hs0 hs1 hd hδ
  set y : Vec := fun a => Flt.val (f := .b64) (pt.data 0 a) with hy
  have hyM : ∀ a, Flt.Bounded (f := .b64) (11 / 10 * M) (pt.data 0 a) := by
    intro a
    refine ⟨hf a, ?_⟩
    have i1 := (abs_apply_le_len (y - x) a).trans hd
    have i2 := abs_sub_abs_le_abs_sub (y a) (x a)
    have i3 := hx a
    rw [Pi.sub_apply] at i1
    show |y a| ≤ _
    linarith
  obtain ⟨o', ho'⟩ : ∃ o' : Observation (F64 lib), o' = { o with pixel := o.camera.worldToPixel pt } := ⟨_, rfl⟩
  have g' : GoodView (11 / 10 * M) y o' := by
    subst ho'
    exact ⟨g.rotation, fun a => ⟨(g.center a).1, (g.center a).2.trans (by linarith)⟩, g.params, g.fx, g.fy, g.skew, g.cx, g.cy,
      (by
        show _ ≤ |o.position y 2|
        linarith), p2, p3⟩
  have m := computed_measured g' (by norm_num) (by linarith) (by norm_num at hM2 ⊢; linarith) pt hyM rfl (by subst ho'; rfl)
  subst ho'
  refine ⟨m.finite a, ?_⟩
  have dz0 : 0 ≤ δ / |o.position x 2| := div_nonneg δ0 hzp.le
  rw [mul_div_assoc] at p4 p5 ⊢
  have p5' : |o.projection y 1 - o.projection x 1| ≤ 22 * (δ / |o.position x 2|) * |Flt.val (f := .b64) o.params.fy| := by
    have := mul_nonneg dz0 (abs_nonneg (Flt.val (f := .b64) o.params.fy))
    linarith
  have key : ∀ {v P Q F : ℝ}, |v - P| ≤ 11 / 10 ^ 11 * |F| → |P - Q| ≤ 22 * (δ / |o.position x 2|) * |F| →
      |v - Q| ≤ (22 * (δ / |o.position x 2|) + 11 / 10 ^ 11) * |F| := by
    intro v P Q F h1 h2
    have := abs_sub_le v P Q
    linarith
  fin_cases a
  · exact key m.u p4
  · exact key m.v p5'

/-- C107 in `f64`, reprojection: triangulating measured pixels (C85) and projecting the point found back into the
cameras gives the measured pixels, up to `σ + 22 δ / z + 1.1e-10` focal lengths, `δ` being the error of C85 and `z` the
depth of the point. -/
theorem c107_f64_reprojection {lib' : Libm Format.b64} {os : List (Observation (F64 lib))} (h2 : 2 ≤ os.length)
    (hM1 : 1 ≤ M) (hM2 : M ≤ 2 ^ 19) (hσ : σ ≤ 1 / 100) (hx : ∀ a, |x a| ≤ M)
    (hg : ∀ o ∈ os, GoodView M x o) (hm : ∀ o ∈ os, Measured σ x o)
    {a b : Observation (F64 lib)} (ha : a ∈ os) (hb : b ∈ os) {κ ρ : ℝ}
    (hκ : κ = 1 - absCos (x - a.center) (x - b.center) - 13 * σ - 15 / 10000000 * os.length)
    (hκ0 : 101 / 1000000000 < κ) (hρ : ρ = (13 * σ + 2 / 10 ^ 12) * M * √(os.length / κ))
    (hδ : δ = ρ + 17 / 10000000 * os.length / κ * (M + (len x + ρ))) (hδM : 100 * δ ≤ M) :
    ∃ pt, bestIntersectionOfRays (Svd3.svd : TrySvd (F64 lib')) (os.map Observation.ray) = .ok pt ∧
      ∀ o ∈ os, M / 50 ≤ |o.position x 2| → 20 * δ ≤ |o.position x 2| → |o.position x 0 / o.position x 2| ≤ 9 →
        |o.position x 1 / o.position x 2| ≤ 9 → ∀ i,
        Flt.isFinite (f := .b64) ((o.camera.worldToPixel pt).data 0 i) ∧
        |Flt.val (f := .b64) ((o.camera.worldToPixel pt).data 0 i) - Flt.val (f := .b64) (o.pixel.data 0 i)| ≤
          (σ + 22 * δ / |o.position x 2| + 11 / 10 ^ 11) *
            |(![Flt.val (f := .b64) o.params.fx, Flt.val (f := .b64) o.params.fy] : Fin 2 → ℝ) i| := by
  obtain ⟨pt, e1, e2, e3⟩ := c85_f64_measured (lib' := lib') h2 hM1 (hM2.trans (by norm_num)) hσ hx hg hm ha hb hκ hκ0 hρ
  rw [← hδ] at e3
  refine ⟨pt, e1, fun o ho hz hd hs0 hs1 i => ?_⟩
  obtain ⟨f1, f2⟩ := c107_f64_near (hg o ho) hM1 hM2 hx hz hs0 hs1 pt e2 e3 hd hδM i
  refine ⟨f1, ?_⟩
  have hmi : |Flt.val (f := .b64) (o.pixel.data 0 i) - o.projection x i| ≤
      σ * |(![Flt.val (f := .b64) o.params.fx, Flt.val (f := .b64) o.params.fy] : Fin 2 → ℝ) i| := by
    fin_cases i
    · exact (hm o ho).u
    · exact (hm o ho).v
  have := abs_sub_le (Flt.val (f := .b64) ((o.camera.worldToPixel pt).data 0 i)) (o.projection x i)
    (Flt.val (f := .b64) (o.pixel.data 0 i))
  rw [abs_sub_comm (o.projection x i)] at this
  linarith

/-! ### Non-vacuity -/

theorem sampleView_exact {c p : Fin 10} (h : c = 0 ∧ p = 2 ∨ c = 8 ∧ p = 0) :
    Measured 0 ![4, 0, 4] (sampleView lib c p) := by
  have hpos := sampleView_position (lib := lib) c p ![4, 0, 4]
  have v1 : Flt.val (f := .b64) (digit lib 1) = 1 := (val_digit lib _).trans (by norm_num)
  have v0 : Flt.val (f := .b64) (digit lib 0) = 0 := (val_digit lib _).trans (by norm_num)
  have e1 : Flt.val (f := .b64) (sampleView lib c p).params.fx = 1 := v1
  have e2 : Flt.val (f := .b64) (sampleView lib c p).params.fy = 1 := v1
  have e3 : Flt.val (f := .b64) (sampleView lib c p).params.skew = 0 := v0
  have e4 : Flt.val (f := .b64) (sampleView lib c p).params.cx = 1 := v1
  have e5 : Flt.val (f := .b64) (sampleView lib c p).params.cy = 0 := v0
  have e6 : Flt.val (f := .b64) ((sampleView lib c p).pixel.data 0 0) = (p : ℕ) := val_digit lib p
  have e7 : Flt.val (f := .b64) ((sampleView lib c p).pixel.data 0 1) = 0 := v0
  refine ⟨fun a => ?_, ?_, ?_⟩
  · fin_cases a <;> exact trivial
  · rw [Observation.projection, e1, e2, e3, e4, e5, e6, hpos]
    simp only [Spec.pinhole, Pi.sub_apply, Matrix.cons_val]
    rcases h with ⟨rfl, rfl⟩ | ⟨rfl, rfl⟩ <;> norm_num
  · rw [Observation.projection, e1, e2, e3, e4, e5, e7, hpos]
    norm_num [Spec.pinhole]

/-- Non-vacuity of C107 in `f64`: two cameras 8 apart see the point (4, 0, 4) at a right angle; the point found from the
exact pixels is projected back to within a thousandth of them. -/
example {lib' : Libm Format.b64} :
    ∃ pt, bestIntersectionOfRays (Svd3.svd : TrySvd (F64 lib'))
        [(sampleView lib 0 2).ray, (sampleView lib 8 0).ray] = .ok pt ∧
      ∀ i, |Flt.val (f := .b64) (((sampleView lib 0 2).camera.worldToPixel pt).data 0 i) -
        Flt.val (f := .b64) ((sampleView lib 0 2).pixel.data 0 i)| ≤ 1 / 1000 := by
  have hlen : ((([sampleView lib 0 2, sampleView lib 8 0] : List (Observation (F64 lib))).length : ℕ) : ℝ) = 2 := by simp
  have mem : ∀ o ∈ [sampleView lib 0 2, sampleView lib 8 0], o = sampleView lib 0 2 ∨ o = sampleView lib 8 0 := by simp
  have l : len ![(4 : ℝ), 0, 4] ≤ 2 * 4 := len_le_entries fun a => by fin_cases a <;> norm_num
  have q : √((2 : ℝ) / (1 - 0 - 13 * 0 - 15 / 10000000 * 2)) ≤ 3 / 2 := by
    rw [Real.sqrt_le_left (by norm_num)]
    norm_num
  have hδ : (13 * 0 + 2 / 10 ^ 12) * 8 * √((2 : ℝ) / (1 - 0 - 13 * 0 - 15 / 10000000 * 2)) + 17 / 10000000 * 2 / (1 - 0 - 13 * 0 - 15 / 10000000 * 2) *
      (8 + (len ![(4 : ℝ), 0, 4] + (13 * 0 + 2 / 10 ^ 12) * 8 * √((2 : ℝ) / (1 - 0 - 13 * 0 - 15 / 10000000 * 2)))) ≤ 1 / 10000 := by
    refine (add_le_add (mul_le_mul_of_nonneg_left q (by norm_num)) (mul_le_mul_of_nonneg_left (add_le_add_right
      (add_le_add l (mul_le_mul_of_nonneg_left q (by norm_num))) _) (by norm_num))).trans ?_
    norm_num
  obtain ⟨pt, p1, p2⟩ := c107_f64_reprojection (lib' := lib') (os := [sampleView lib 0 2, sampleView lib 8 0])
    (M := 8) (σ := 0) (x := ![4, 0, 4]) (by simp) (by norm_num) (by norm_num) (by norm_num)
    (fun a => by fin_cases a <;> norm_num)
    (fun o ho => by
      rcases mem o ho with rfl | rfl
      exacts [sampleView_good 0 2 (Or.inl rfl), sampleView_good 8 0 (Or.inr rfl)])
    (fun o ho => by
      rcases mem o ho with rfl | rfl
      exacts [sampleView_exact (Or.inl ⟨rfl, rfl⟩), sampleView_exact (Or.inr ⟨rfl, rfl⟩)])
    (a := sampleView lib 0 2) (b := sampleView lib 8 0) (by simp) (by simp) rfl
    (by rw [sampleView_angle, hlen]; norm_num) rfl rfl (by rw [sampleView_angle, hlen]; linarith)
  rw [sampleView_angle, hlen] at p2
  have hpos := sampleView_position (lib := lib) 0 2 ![4, 0, 4]
  have x0 : (sampleView lib 0 2).position ![4, 0, 4] 0 = 4 := by rw [hpos]; simp
  have x1 : (sampleView lib 0 2).position ![4, 0, 4] 1 = 0 := by rw [hpos]; simp
  have x2 : (sampleView lib 0 2).position ![4, 0, 4] 2 = 4 := by rw [hpos]; simp
  have v1 : Flt.val (f := .b64) (digit lib 1) = 1 := (val_digit lib _).trans (by norm_num)
  have e1 : Flt.val (f := .b64) (sampleView lib 0 2).params.fx = 1 := v1
  have e2 : Flt.val (f := .b64) (sampleView lib 0 2).params.fy = 1 := v1
  refine ⟨pt, p1, fun i => ?_⟩
  have h := (p2 (sampleView lib 0 2) (by simp) (by rw [x2]; norm_num) (by rw [x2]; norm_num at hδ ⊢; linarith) (by rw [x0, x2]; norm_num)
    (by rw [x1, x2]; norm_num) i).2
  rw [x2, e1, e2, show |(![1, 1] : Fin 2 → ℝ) i| = 1 by fin_cases i <;> norm_num, _root_.mul_one] at h
  refine h.trans ?_
  norm_num at hδ ⊢
  linarith

end

section
variable {lib : Libm Format.b32} {D M δ σ : ℝ} {x : Vec} {o : Observation (F32 lib)}

/-- C107 in `f32`: the pixel computed for a point within `δ` of `x` is near the exact projection of `x`. -/
theorem c107_f32_near (g : GoodView32 D M x o) (hD1 : 1 ≤ D) (hD2 : D ≤ 40) (hM1 : 1 ≤ M) (hM2 : M ≤ 2 ^ 19)
    (hx : ∀ a, |x a| ≤ M) (hs0 : |o.position x 0 / o.position x 2| ≤ 9)
    (hs1 : |o.position x 1 / o.position x 2| ≤ 9) (pt : Points WorldFrame (F32 lib) 1)
    (hf : ∀ a, Flt.isFinite (f := .b32) (pt.data 0 a))
    (hd : distance (fun a => Flt.val (f := .b32) (pt.data 0 a)) x ≤ δ) (hδ : 20 * δ ≤ |o.position x 2|)
    (hδ' : 100 * δ ≤ M) (a : Fin 2) :
    Flt.isFinite (f := .b32) ((o.camera.worldToPixel pt).data 0 a) ∧
    |Flt.val (f := .b32) ((o.camera.worldToPixel pt).data 0 a) - o.projection x a| ≤
      (22 * δ / |o.position x 2| + 19 / 10 ^ 5 * D) *
        |(![Flt.val (f := .b32) o.params.fx, Flt.val (f := .b32) o.params.fy] : Fin 2 → ℝ) a| := by
  set fl := RustFloat.rounding .b32 lib with hfl
  have hdep := g.depth
  have hzp : 0 < |o.position x 2| := by
    by_contra h
    have := le_antisymm (not_lt.1 h) (abs_nonneg _)
    rw [this] at hdep
    linarith
  have δ0 : 0 ≤ δ := (len_nonneg _).trans hd
  obtain ⟨p1, p2, p3, p4, p5⟩ := projection_near g.rotation.quatNormSq (by norm_num) g.skew hzp hs0 hs1 hd hδ
  set y : Vec := fun a => Flt.val (f := .b32) (pt.data 0 a) with hy
  have hyM : ∀ a, Flt.Bounded (f := .b32) (101 / 100 * M) (pt.data 0 a) := by
    intro a
    refine ⟨hf a, ?_⟩
    have i1 := (abs_apply_le_len (y - x) a).trans hd
    have i2 := abs_sub_abs_le_abs_sub (y a) (x a)
    have i3 := hx a
    rw [Pi.sub_apply] at i1
    show |y a| ≤ _
    linarith
  obtain ⟨o', ho'⟩ : ∃ o' : Observation (F32 lib), o' = { o with pixel := o.camera.worldToPixel pt } := ⟨_, rfl⟩
  have g' : GoodView32 (11 / 10 * D) (101 / 100 * M) y o' := by
    subst ho'
    exact ⟨g.rotation, fun a => ⟨(g.center a).1, (g.center a).2.trans (by linarith)⟩, g.params, g.fx, g.fy, g.skew, g.cx, g.cy,
      (by
        show _ ≤ _ * |o.position y 2|
        have := mul_le_mul_of_nonneg_left p1 (show 0 ≤ D by linarith)
        linarith), p2, p3⟩
  have m := computed_measured32 g' (by linarith) (by linarith) (by linarith) (by norm_num at hM2 ⊢; linarith) pt hyM rfl
    (by subst ho'; rfl)
  subst ho'
  refine ⟨m.finite a, ?_⟩
  have dz0 : 0 ≤ δ / |o.position x 2| := div_nonneg δ0 hzp.le
  rw [mul_div_assoc] at p4 p5 ⊢
  have p5' : |o.projection y 1 - o.projection x 1| ≤ 22 * (δ / |o.position x 2|) * |Flt.val (f := .b32) o.params.fy| := by
    have := mul_nonneg dz0 (abs_nonneg (Flt.val (f := .b32) o.params.fy))
    linarith
  have key : ∀ {v P Q F : ℝ}, |v - P| ≤ 17 / 10 ^ 5 * (11 / 10 * D) * |F| → |P - Q| ≤ 22 * (δ / |o.position x 2|) * |F| →
      |v - Q| ≤ (22 * (δ / |o.position x 2|) + 19 / 10 ^ 5 * D) * |F| := by
    intro v P Q F h1 h2
    have := abs_sub_le v P Q
    have := mul_nonneg (show 0 ≤ D by linarith) (abs_nonneg F)
    norm_num at h1 ⊢
    linarith
  fin_cases a
  · exact key m.u p4
  · exact key m.v p5'

/-- C107 in `f32`, reprojection: triangulating measured pixels (C99) and projecting the point found back into the
cameras gives the measured pixels, up to `σ + 22 δ / z + 1.9e-4 D` focal lengths, `δ` being the error of C99 and `z` the
depth of the point. -/
theorem c107_f32_reprojection {lib' : Libm Format.b64} {os : List (Observation (F32 lib))} (h2 : 2 ≤ os.length)
    (hD1 : 1 ≤ D) (hD2 : D ≤ 40) (hM1 : 1 ≤ M) (hM2 : M ≤ 2 ^ 19) (hσ : σ ≤ 1 / 100) (hx : ∀ a, |x a| ≤ M)
    (hg : ∀ o ∈ os, GoodView32 D M x o) (hm : ∀ o ∈ os, Measured σ x o)
    {a b : Observation (F32 lib)} (ha : a ∈ os) (hb : b ∈ os) {κ ρ : ℝ}
    (hκ : κ = 1 - absCos (x - a.center) (x - b.center) - 13 * σ - 6 / 10 ^ 4 * D - 71 / 10000000 * os.length)
    (hκ0 : 101 / 1000000000 < κ) (hρ : ρ = (13 * σ + 33 / 10 ^ 5) * M * √(os.length / κ))
    (hδ : δ = ρ + 65 / 1000000 * os.length / κ * (M + (len x + ρ))) (hδM : 100 * δ ≤ M) :
    ∃ pt, bestIntersectionOfRays (Svd3.svd : TrySvd (F64 lib')) (os.map Observation.ray) = .ok pt ∧
      ∀ o ∈ os, 20 * δ ≤ |o.position x 2| → |o.position x 0 / o.position x 2| ≤ 9 →
        |o.position x 1 / o.position x 2| ≤ 9 → ∀ i,
        Flt.isFinite (f := .b32) ((o.camera.worldToPixel pt).data 0 i) ∧
        |Flt.val (f := .b32) ((o.camera.worldToPixel pt).data 0 i) - Flt.val (f := .b32) (o.pixel.data 0 i)| ≤
          (σ + 22 * δ / |o.position x 2| + 19 / 10 ^ 5 * D) *
            |(![Flt.val (f := .b32) o.params.fx, Flt.val (f := .b32) o.params.fy] : Fin 2 → ℝ) i| := by
  obtain ⟨pt, e1, e2, e3⟩ := c99_f32_measured (lib' := lib') h2 hD1 (by linarith) hM1 (hM2.trans (by norm_num)) hσ hx hg hm
    ha hb hκ hκ0 hρ
  rw [← hδ] at e3
  refine ⟨pt, e1, fun o ho hd hs0 hs1 i => ?_⟩
  obtain ⟨f1, f2⟩ := c107_f32_near (hg o ho) hD1 hD2 hM1 hM2 hx hs0 hs1 pt e2 e3 hd hδM i
  refine ⟨f1, ?_⟩
  have hmi : |Flt.val (f := .b32) (o.pixel.data 0 i) - o.projection x i| ≤
      σ * |(![Flt.val (f := .b32) o.params.fx, Flt.val (f := .b32) o.params.fy] : Fin 2 → ℝ) i| := by
    fin_cases i
    · exact (hm o ho).u
    · exact (hm o ho).v
  have := abs_sub_le (Flt.val (f := .b32) ((o.camera.worldToPixel pt).data 0 i)) (o.projection x i)
    (Flt.val (f := .b32) (o.pixel.data 0 i))
  rw [abs_sub_comm (o.projection x i)] at this
  linarith

/-! ### Non-vacuity -/

theorem sampleView32_exact {c p : Fin 10} (h : c = 0 ∧ p = 2 ∨ c = 8 ∧ p = 0) :
    Measured 0 ![4, 0, 4] (sampleView32 lib c p) := by
  have hpos := sampleView32_position (lib := lib) c p ![4, 0, 4]
  have v1 : Flt.val (f := .b32) (digit32 lib 1) = 1 := (val_digit32 lib _).trans (by norm_num)
  have v0 : Flt.val (f := .b32) (digit32 lib 0) = 0 := (val_digit32 lib _).trans (by norm_num)
  have e1 : Flt.val (f := .b32) (sampleView32 lib c p).params.fx = 1 := v1
  have e2 : Flt.val (f := .b32) (sampleView32 lib c p).params.fy = 1 := v1
  have e3 : Flt.val (f := .b32) (sampleView32 lib c p).params.skew = 0 := v0
  have e4 : Flt.val (f := .b32) (sampleView32 lib c p).params.cx = 1 := v1
  have e5 : Flt.val (f := .b32) (sampleView32 lib c p).params.cy = 0 := v0
  have e6 : Flt.val (f := .b32) ((sampleView32 lib c p).pixel.data 0 0) = (p : ℕ) := val_digit32 lib p
  have e7 : Flt.val (f := .b32) ((sampleView32 lib c p).pixel.data 0 1) = 0 := v0
  refine ⟨fun a => ?_, ?_, ?_⟩
  · fin_cases a <;> exact trivial
  · rw [Observation.projection, e1, e2, e3, e4, e5, e6, hpos]
    simp only [Spec.pinhole, Pi.sub_apply, Matrix.cons_val]
    rcases h with ⟨rfl, rfl⟩ | ⟨rfl, rfl⟩ <;> norm_num
  · rw [Observation.projection, e1, e2, e3, e4, e5, e7, hpos]
    norm_num [Spec.pinhole]

/-- Non-vacuity of C107 in `f32`: two cameras 8 apart see the point (4, 0, 4) at a right angle; the point found from the
exact pixels is projected back to within a twentieth of them. -/
example {lib' : Libm Format.b64} :
    ∃ pt, bestIntersectionOfRays (Svd3.svd : TrySvd (F64 lib'))
        [(sampleView32 lib 0 2).ray, (sampleView32 lib 8 0).ray] = .ok pt ∧
      ∀ i, |Flt.val (f := .b32) (((sampleView32 lib 0 2).camera.worldToPixel pt).data 0 i) -
        Flt.val (f := .b32) ((sampleView32 lib 0 2).pixel.data 0 i)| ≤ 1 / 20 := by
  have hlen : ((([sampleView32 lib 0 2, sampleView32 lib 8 0] : List (Observation (F32 lib))).length : ℕ) : ℝ) = 2 := by simp
  have mem : ∀ o ∈ [sampleView32 lib 0 2, sampleView32 lib 8 0], o = sampleView32 lib 0 2 ∨ o = sampleView32 lib 8 0 := by simp
  have l : len ![(4 : ℝ), 0, 4] ≤ 2 * 4 := len_le_entries fun a => by fin_cases a <;> norm_num
  have q : √((2 : ℝ) / (1 - 0 - 13 * 0 - 6 / 10 ^ 4 * 2 - 71 / 10000000 * 2)) ≤ 3 / 2 := by
    rw [Real.sqrt_le_left (by norm_num)]
    norm_num
  have hδ : (13 * 0 + 33 / 10 ^ 5) * 8 * √((2 : ℝ) / (1 - 0 - 13 * 0 - 6 / 10 ^ 4 * 2 - 71 / 10000000 * 2)) + 65 / 1000000 * 2 / (1 - 0 - 13 * 0 - 6 / 10 ^ 4 * 2 - 71 / 10000000 * 2) *
      (8 + (len ![(4 : ℝ), 0, 4] + (13 * 0 + 33 / 10 ^ 5) * 8 * √((2 : ℝ) / (1 - 0 - 13 * 0 - 6 / 10 ^ 4 * 2 - 71 / 10000000 * 2)))) ≤ 7 / 1000 := by
    refine (add_le_add (mul_le_mul_of_nonneg_left q (by norm_num)) (mul_le_mul_of_nonneg_left (add_le_add_right
      (add_le_add l (mul_le_mul_of_nonneg_left q (by norm_num))) _) (by norm_num))).trans ?_
    norm_num
  obtain ⟨pt, p1, p2⟩ := c107_f32_reprojection (lib' := lib') (os := [sampleView32 lib 0 2, sampleView32 lib 8 0])
    (D := 2) (M := 8) (σ := 0) (x := ![4, 0, 4]) (by simp) (by norm_num) (by norm_num) (by norm_num) (by norm_num) (by norm_num)
    (fun a => by fin_cases a <;> norm_num)
    (fun o ho => by
      rcases mem o ho with rfl | rfl
      exacts [sampleView32_good 0 2 (Or.inl rfl), sampleView32_good 8 0 (Or.inr rfl)])
    (fun o ho => by
      rcases mem o ho with rfl | rfl
      exacts [sampleView32_exact (Or.inl ⟨rfl, rfl⟩), sampleView32_exact (Or.inr ⟨rfl, rfl⟩)])
    (a := sampleView32 lib 0 2) (b := sampleView32 lib 8 0) (by simp) (by simp) rfl
    (by rw [sampleView32_angle, hlen]; norm_num) rfl rfl (by rw [sampleView32_angle, hlen]; linarith)
  rw [sampleView32_angle, hlen] at p2
  have hpos := sampleView32_position (lib := lib) 0 2 ![4, 0, 4]
  have x0 : (sampleView32 lib 0 2).position ![4, 0, 4] 0 = 4 := by rw [hpos]; simp
  have x1 : (sampleView32 lib 0 2).position ![4, 0, 4] 1 = 0 := by rw [hpos]; simp
  have x2 : (sampleView32 lib 0 2).position ![4, 0, 4] 2 = 4 := by rw [hpos]; simp
  have v1 : Flt.val (f := .b32) (digit32 lib 1) = 1 := (val_digit32 lib _).trans (by norm_num)
  have e1 : Flt.val (f := .b32) (sampleView32 lib 0 2).params.fx = 1 := v1
  have e2 : Flt.val (f := .b32) (sampleView32 lib 0 2).params.fy = 1 := v1
  refine ⟨pt, p1, fun i => ?_⟩
  have h := (p2 (sampleView32 lib 0 2) (by simp) (by rw [x2]; norm_num at hδ ⊢; linarith) (by rw [x0, x2]; norm_num)
    (by rw [x1, x2]; norm_num) i).2
  rw [x2, e1, e2, show |(![1, 1] : Fin 2 → ℝ) i| = 1 by fin_cases i <;> norm_num, _root_.mul_one] at h
  refine h.trans ?_
  norm_num at hδ ⊢
  linarith

end
end CamGeom

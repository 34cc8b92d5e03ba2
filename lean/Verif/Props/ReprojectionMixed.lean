import Verif.Props.FloatOrthographic32
import Verif.Props.Reprojection

/-!
# C107: reprojection with orthographic cameras and cameras of both kinds
-/

namespace CamGeom
open Rounding ExtrinsicParameters Spec Matrix

/-- The exact images of nearby points in an orthographic camera. -/
theorem parallel_near {f : Format} {lib : Libm f} {o : ParallelView (RustFloat f lib)} {ε δ : ℝ} {x y : Vec}
    (hq : |quatNormSq ((RustFloat.rounding f lib).quat o.rotation) - 1| ≤ ε) (hε : ε ≤ 1 / 10 ^ 6)
    (hd : distance y x ≤ δ) :
    |o.projection y 0 - o.projection x 0| ≤ 1001 / 1000 * δ * |Flt.val (f := f) o.params.sx| ∧
    |o.projection y 1 - o.projection x 1| ≤ 1001 / 1000 * δ * |Flt.val (f := f) o.params.sy| := by
  set fl := RustFloat.rounding f lib with hfl
  have hp : ∀ a, |o.position y a - o.position x a| ≤ 1001 / 1000 * δ := by
    intro a
    have e : o.position y - o.position x = (fl.quat o.rotation).rotate (y - x) := by
      rw [ParallelView.position, ParallelView.position, pose_apply, pose_apply, rotate_sub]
      abel
    rw [← Pi.sub_apply, e]
    refine (abs_apply_le_len _ a).trans ((len_rotate_le hq _).trans ?_)
    exact mul_le_mul (by norm_num at hε; linarith) hd (len_nonneg _) (by norm_num)
  constructor
  · have e : o.projection y 0 - o.projection x 0 =
        (o.position y 0 - o.position x 0) * Flt.val (f := f) o.params.sx := by
      simp only [ParallelView.projection, Spec.orthographic, Matrix.cons_val]
      ring
    rw [e, abs_mul]
    exact mul_le_mul_of_nonneg_right (hp 0) (abs_nonneg _)
  · have e : o.projection y 1 - o.projection x 1 =
        (o.position y 1 - o.position x 1) * Flt.val (f := f) o.params.sy := by
      simp only [ParallelView.projection, Spec.orthographic, Matrix.cons_val]
      ring
    rw [e, abs_mul]
    exact mul_le_mul_of_nonneg_right (hp 1) (abs_nonneg _)

section
variable {lib : Libm Format.b64} {M δ σ : ℝ} {x : Vec} {o : ParallelView (F64 lib)}

theorem GoodParallel.mono (g : GoodParallel M o) {M' : ℝ} (h : M ≤ M') : GoodParallel M' o where
  rotation := g.rotation
  center := fun a => ⟨(g.center a).1, (g.center a).2.trans h⟩
  params := g.params
  sx := g.sx
  sy := g.sy
  sx_le := g.sx_le
  sy_le := g.sy_le
  cx := g.cx.trans (mul_le_mul_of_nonneg_right (by linarith) (abs_nonneg _))
  cy := g.cy.trans (mul_le_mul_of_nonneg_right (by linarith) (abs_nonneg _))

/-- C107 in `f64` for an orthographic camera: the pixel computed for a point within `δ` of `x` is near the exact projection
of `x`. -/
theorem c107_f64_orthographic_near (g : GoodParallel M o) (hM1 : 1 ≤ M) (hM2 : M ≤ 2 ^ 19) (hx : ∀ a, |x a| ≤ M)
    (pt : Points WorldFrame (F64 lib) 1) (hf : ∀ a, Flt.isFinite (f := .b64) (pt.data 0 a))
    (hd : distance (fun a => Flt.val (f := .b64) (pt.data 0 a)) x ≤ δ) (hδ' : 100 * δ ≤ M) (a : Fin 2) :
    Flt.isFinite (f := .b64) ((o.camera.worldToPixel pt).data 0 a) ∧
    |Flt.val (f := .b64) ((o.camera.worldToPixel pt).data 0 a) - o.projection x a| ≤
      (1001 / 1000 * δ + 4 / 10 ^ 14 * M) * |(![Flt.val (f := .b64) o.params.sx, Flt.val (f := .b64) o.params.sy] : Fin 2 → ℝ) a| := by
  set y : Vec := fun a => Flt.val (f := .b64) (pt.data 0 a) with hy
  obtain ⟨p4, p5⟩ := parallel_near (o := o) g.rotation.quatNormSq (by norm_num) hd
  have hyM : ∀ a, Flt.Bounded (f := .b64) (11 / 10 * M) (pt.data 0 a) := by
    intro a
    refine ⟨hf a, ?_⟩
    have i1 := (abs_apply_le_len (y - x) a).trans hd
    have i2 := abs_sub_abs_le_abs_sub (y a) (x a)
    have i3 := hx a
    rw [Pi.sub_apply] at i1
    show |y a| ≤ _
    linarith
  obtain ⟨o', ho'⟩ : ∃ o' : ParallelView (F64 lib), o' = { o with pixel := o.camera.worldToPixel pt } := ⟨_, rfl⟩
  have g' : GoodParallel (11 / 10 * M) o' := by
    subst ho'
    exact { g.mono (show M ≤ 11 / 10 * M by linarith) with }
  have m := c88_f64_world_to_pixel (x := y) g' (by linarith) (by norm_num at hM2 ⊢; linarith) pt hyM rfl
    (by subst ho'; rfl)
  subst ho'
  refine ⟨m.finite a, ?_⟩
  have key : ∀ {v P Q S : ℝ}, |v - P| ≤ 3 / 10 ^ 14 * (11 / 10 * M) * |S| → |P - Q| ≤ 1001 / 1000 * δ * |S| →
      |v - Q| ≤ (1001 / 1000 * δ + 4 / 10 ^ 14 * M) * |S| := by
    intro v P Q S h1 h2
    have := abs_sub_le v P Q
    have := mul_nonneg (show 0 ≤ M by linarith) (abs_nonneg S)
    linarith
  fin_cases a
  · exact key m.u p4
  · exact key m.v p5

/-- C107 in `f64` for cameras of both kinds: triangulating measured pixels (C88) and projecting the point found back
into the cameras gives the measured pixels, up to `σ + 22 δ / z + 1.1e-10` focal lengths for a perspective camera and
the image of `σ M + 1.001 δ + 4e-14 M` units for an orthographic one. -/
theorem c107_f64_mixed_reprojection {lib' : Libm Format.b64} {os : List (View (F64 lib))} (h2 : 2 ≤ os.length)
    (hM1 : 1 ≤ M) (hM2 : M ≤ 2 ^ 19) (hσ : σ ≤ 1 / 100) (hx : ∀ a, |x a| ≤ M)
    (hg : ∀ o ∈ os, o.Good M x) (hm : ∀ o ∈ os, o.Measured σ M x)
    {a b : View (F64 lib)} (ha : a ∈ os) (hb : b ∈ os) {κ ρ : ℝ}
    (hκ : κ = 1 - absCos (a.sight x) (b.sight x) - 13 * σ - 15 / 10000000 * os.length)
    (hκ0 : 101 / 1000000000 < κ) (hρ : ρ = (13 * σ + 2 / 10 ^ 12) * M * √(os.length / κ))
    (hδ : δ = ρ + 16 / 10000000 * os.length / κ * (6 * M + (len x + ρ))) (hδM : 100 * δ ≤ M) :
    ∃ pt, bestIntersectionOfRays (Svd3.svd : TrySvd (F64 lib')) (os.map View.ray) = .ok pt ∧
      (∀ o, View.perspective o ∈ os → M / 50 ≤ |o.position x 2| → 20 * δ ≤ |o.position x 2| → |o.position x 0 / o.position x 2| ≤ 9 →
        |o.position x 1 / o.position x 2| ≤ 9 → ∀ i,
        Flt.isFinite (f := .b64) ((o.camera.worldToPixel pt).data 0 i) ∧
        |Flt.val (f := .b64) ((o.camera.worldToPixel pt).data 0 i) - Flt.val (f := .b64) (o.pixel.data 0 i)| ≤
          (σ + 22 * δ / |o.position x 2| + 11 / 10 ^ 11) *
            |(![Flt.val (f := .b64) o.params.fx, Flt.val (f := .b64) o.params.fy] : Fin 2 → ℝ) i|) ∧
      ∀ o, View.orthographic o ∈ os → ∀ i,
        Flt.isFinite (f := .b64) ((o.camera.worldToPixel pt).data 0 i) ∧
        |Flt.val (f := .b64) ((o.camera.worldToPixel pt).data 0 i) - Flt.val (f := .b64) (o.pixel.data 0 i)| ≤
          (σ * M + 1001 / 1000 * δ + 4 / 10 ^ 14 * M) *
            |(![Flt.val (f := .b64) o.params.sx, Flt.val (f := .b64) o.params.sy] : Fin 2 → ℝ) i| := by
  obtain ⟨pt, e1, e2, e3⟩ := c88_f64_measured (lib' := lib') h2 hM1 (hM2.trans (by norm_num)) hσ hx hg hm
    ha hb hκ hκ0 hρ
  rw [← hδ] at e3
  refine ⟨pt, e1, fun o ho hz hd hs0 hs1 i => ?_, fun o ho i => ?_⟩
  · obtain ⟨f1, f2⟩ := c107_f64_near (hg _ ho) hM1 hM2 hx hz hs0 hs1 pt e2 e3 hd hδM i
    refine ⟨f1, ?_⟩
    have m : Measured σ x o := hm _ ho
    have hmi : |Flt.val (f := .b64) (o.pixel.data 0 i) - o.projection x i| ≤ σ * |(![Flt.val (f := .b64) o.params.fx, Flt.val (f := .b64) o.params.fy] : Fin 2 → ℝ) i| := by
      fin_cases i
      · exact m.u
      · exact m.v
    have := abs_sub_le (Flt.val (f := .b64) ((o.camera.worldToPixel pt).data 0 i)) (o.projection x i)
      (Flt.val (f := .b64) (o.pixel.data 0 i))
    rw [abs_sub_comm (o.projection x i)] at this
    linarith
  · obtain ⟨f1, f2⟩ := c107_f64_orthographic_near (hg _ ho) hM1 hM2 hx pt e2 e3 hδM i
    refine ⟨f1, ?_⟩
    have m : MeasuredParallel σ M x o := hm _ ho
    have hmi : |Flt.val (f := .b64) (o.pixel.data 0 i) - o.projection x i| ≤ σ * M * |(![Flt.val (f := .b64) o.params.sx, Flt.val (f := .b64) o.params.sy] : Fin 2 → ℝ) i| := by
      fin_cases i
      · exact m.u
      · exact m.v
    have := abs_sub_le (Flt.val (f := .b64) ((o.camera.worldToPixel pt).data 0 i)) (o.projection x i)
      (Flt.val (f := .b64) (o.pixel.data 0 i))
    rw [abs_sub_comm (o.projection x i)] at this
    linarith

/-! ### Non-vacuity -/

theorem sampleParallel_exact : MeasuredParallel 0 8 ![4, 0, 4] (sampleParallel lib 5) := by
  have v1 : Flt.val (f := .b64) (digit lib 1) = 1 := (val_digit lib _).trans (by norm_num)
  have v0 : Flt.val (f := .b64) (digit lib 0) = 0 := (val_digit lib _).trans (by norm_num)
  have v5 : Flt.val (f := .b64) (digit lib 5) = 5 := (val_digit lib _).trans (by norm_num)
  have e1 : Flt.val (f := .b64) (sampleParallel lib 5).params.sx = 1 := v1
  have e2 : Flt.val (f := .b64) (sampleParallel lib 5).params.sy = 1 := v1
  have e3 : Flt.val (f := .b64) (sampleParallel lib 5).params.cx = 1 := v1
  have e4 : Flt.val (f := .b64) (sampleParallel lib 5).params.cy = 0 := v0
  have e5 : Flt.val (f := .b64) ((sampleParallel lib 5).pixel.data 0 0) = 5 := v5
  have e6 : Flt.val (f := .b64) ((sampleParallel lib 5).pixel.data 0 1) = 0 := v0
  refine ⟨fun a => ?_, ?_, ?_⟩
  · fin_cases a <;> exact trivial
  · rw [ParallelView.projection, e1, e2, e3, e4, e5, sampleParallel_position]
    norm_num [Spec.orthographic]
  · rw [ParallelView.projection, e1, e2, e3, e4, e6, sampleParallel_position]
    norm_num [Spec.orthographic]

/-- Non-vacuity of C107 in `f64` for cameras of both kinds: a perspective and an orthographic camera see the point
(4, 0, 4); the point found from the exact pixels is projected back to within a hundredth of them. -/
example {lib' : Libm Format.b64} :
    ∃ pt, bestIntersectionOfRays (Svd3.svd : TrySvd (F64 lib'))
        [(sampleView lib 0 2).ray, (sampleParallel lib 5).ray] = .ok pt ∧
      (∀ i, |Flt.val (f := .b64) (((sampleView lib 0 2).camera.worldToPixel pt).data 0 i) -
        Flt.val (f := .b64) ((sampleView lib 0 2).pixel.data 0 i)| ≤ 1 / 100) ∧
      ∀ i, |Flt.val (f := .b64) (((sampleParallel lib 5).camera.worldToPixel pt).data 0 i) -
        Flt.val (f := .b64) ((sampleParallel lib 5).pixel.data 0 i)| ≤ 1 / 100 := by
  have ang := sampleParallel_angle (lib := lib)
  have hlen : ((([.perspective (sampleView lib 0 2), .orthographic (sampleParallel lib 5)] : List (View (F64 lib))).length : ℕ) : ℝ) = 2 := by
    simp
  have mem : ∀ o ∈ ([.perspective (sampleView lib 0 2), .orthographic (sampleParallel lib 5)] : List (View (F64 lib))),
      o = .perspective (sampleView lib 0 2) ∨ o = .orthographic (sampleParallel lib 5) := by simp
  obtain ⟨κ, hκ⟩ : ∃ κ : ℝ, κ = 1 - absCos ((View.perspective (sampleView lib 0 2)).sight ![4, 0, 4])
      ((View.orthographic (sampleParallel lib 5)).sight ![4, 0, 4]) - 13 * 0 - 15 / 10000000 *
      ((([.perspective (sampleView lib 0 2), .orthographic (sampleParallel lib 5)] : List (View (F64 lib))).length : ℕ) : ℝ) := ⟨_, rfl⟩
  have k1 : 23 / 100 ≤ κ := by
    rw [hκ, hlen]
    norm_num
    linarith
  have l : len ![(4 : ℝ), 0, 4] ≤ 2 * 4 := len_le_entries fun a => by fin_cases a <;> norm_num
  have q1 : 2 / κ ≤ 9 := by rw [div_le_iff₀ (by linarith)]; linarith
  have q : √(2 / κ) ≤ 3 := by
    rw [Real.sqrt_le_left (by norm_num)]
    linarith
  have q2 : 16 / 10000000 * 2 / κ ≤ 16 / 10000000 * 9 := by rw [mul_div_assoc]; linarith
  have hδ : (13 * 0 + 2 / 10 ^ 12) * 8 * √(2 / κ) + 16 / 10000000 * 2 / κ *
      (6 * 8 + (len ![(4 : ℝ), 0, 4] + (13 * 0 + 2 / 10 ^ 12) * 8 * √(2 / κ))) ≤ 1 / 1000 := by
    have l0 := len_nonneg ![(4 : ℝ), 0, 4]
    have s0 := Real.sqrt_nonneg (2 / κ)
    refine (add_le_add (mul_le_mul_of_nonneg_left q (by norm_num)) (mul_le_mul q2 (add_le_add_right
      (add_le_add l (mul_le_mul_of_nonneg_left q (by norm_num))) _) (by norm_num; positivity) (by norm_num))).trans ?_
    norm_num
  obtain ⟨pt, p1, p2, p3⟩ := c107_f64_mixed_reprojection (lib' := lib')
    (os := [.perspective (sampleView lib 0 2), .orthographic (sampleParallel lib 5)])
    (M := 8) (σ := 0) (x := ![4, 0, 4]) (by simp) (by norm_num) (by norm_num) (by norm_num)
    (fun a => by fin_cases a <;> norm_num)
    (fun o ho => by
      rcases mem o ho with rfl | rfl
      exacts [sampleView_good 0 2 (Or.inl rfl), sampleParallel_good 5])
    (fun o ho => by
      rcases mem o ho with rfl | rfl
      exacts [sampleView_exact (Or.inl ⟨rfl, rfl⟩), sampleParallel_exact])
    (a := .perspective (sampleView lib 0 2)) (b := .orthographic (sampleParallel lib 5)) (by simp) (by simp) hκ
    (by linarith) rfl rfl (by rw [hlen]; linarith)
  rw [hlen] at p2 p3
  have hpos := sampleView_position (lib := lib) 0 2 ![4, 0, 4]
  have x0 : (sampleView lib 0 2).position ![4, 0, 4] 0 = 4 := by rw [hpos]; simp
  have x1 : (sampleView lib 0 2).position ![4, 0, 4] 1 = 0 := by rw [hpos]; simp
  have x2 : (sampleView lib 0 2).position ![4, 0, 4] 2 = 4 := by rw [hpos]; simp
  have v1 : Flt.val (f := .b64) (digit lib 1) = 1 := (val_digit lib _).trans (by norm_num)
  have e1 : Flt.val (f := .b64) (sampleView lib 0 2).params.fx = 1 := v1
  have e2 : Flt.val (f := .b64) (sampleView lib 0 2).params.fy = 1 := v1
  have e3 : Flt.val (f := .b64) (sampleParallel lib 5).params.sx = 1 := v1
  have e4 : Flt.val (f := .b64) (sampleParallel lib 5).params.sy = 1 := v1
  refine ⟨pt, p1, fun i => ?_, fun i => ?_⟩
  · have h := (p2 (sampleView lib 0 2) (by simp) (by rw [x2]; norm_num) (by rw [x2]; norm_num at hδ ⊢; linarith) (by rw [x0, x2]; norm_num)
      (by rw [x1, x2]; norm_num) i).2
    rw [x2, e1, e2, show |(![1, 1] : Fin 2 → ℝ) i| = 1 by fin_cases i <;> norm_num, _root_.mul_one] at h
    refine h.trans ?_
    norm_num at hδ ⊢
    linarith
  · have h := (p3 (sampleParallel lib 5) (by simp) i).2
    rw [e3, e4, show |(![1, 1] : Fin 2 → ℝ) i| = 1 by fin_cases i <;> norm_num, _root_.mul_one] at h
    refine h.trans ?_
    norm_num at hδ ⊢
    linarith

end

section
variable {lib : Libm Format.b32} {D M δ σ : ℝ} {x : Vec} {o : ParallelView (F32 lib)}

/-- C107 in `f32` for an orthographic camera: the pixel computed for a point within `δ` of `x` is near the exact projection
of `x`. -/
theorem c107_f32_orthographic_near (g : GoodParallel32 M o) (hM1 : 1 ≤ M) (hM2 : M ≤ 2 ^ 19) (hx : ∀ a, |x a| ≤ M)
    (pt : Points WorldFrame (F32 lib) 1) (hf : ∀ a, Flt.isFinite (f := .b32) (pt.data 0 a))
    (hd : distance (fun a => Flt.val (f := .b32) (pt.data 0 a)) x ≤ δ) (hδ' : 100 * δ ≤ M) (a : Fin 2) :
    Flt.isFinite (f := .b32) ((o.camera.worldToPixel pt).data 0 a) ∧
    |Flt.val (f := .b32) ((o.camera.worldToPixel pt).data 0 a) - o.projection x a| ≤
      (1001 / 1000 * δ + 6 / 10 ^ 6 * M) * |(![Flt.val (f := .b32) o.params.sx, Flt.val (f := .b32) o.params.sy] : Fin 2 → ℝ) a| := by
  set y : Vec := fun a => Flt.val (f := .b32) (pt.data 0 a) with hy
  obtain ⟨p4, p5⟩ := parallel_near (o := o) g.rotation.quatNormSq (by norm_num) hd
  have hyM : ∀ a, Flt.Bounded (f := .b32) (11 / 10 * M) (pt.data 0 a) := by
    intro a
    refine ⟨hf a, ?_⟩
    have i1 := (abs_apply_le_len (y - x) a).trans hd
    have i2 := abs_sub_abs_le_abs_sub (y a) (x a)
    have i3 := hx a
    rw [Pi.sub_apply] at i1
    show |y a| ≤ _
    linarith
  obtain ⟨o', ho'⟩ : ∃ o' : ParallelView (F32 lib), o' = { o with pixel := o.camera.worldToPixel pt } := ⟨_, rfl⟩
  have g' : GoodParallel32 (11 / 10 * M) o' := by
    subst ho'
    exact { g.mono (show M ≤ 11 / 10 * M by linarith) with }
  have m := c101_f32_world_to_pixel (x := y) g' (by linarith) (by norm_num at hM2 ⊢; linarith) pt hyM rfl
    (by subst ho'; rfl)
  subst ho'
  refine ⟨m.finite a, ?_⟩
  have key : ∀ {v P Q S : ℝ}, |v - P| ≤ 54 / 10 ^ 7 * (11 / 10 * M) * |S| → |P - Q| ≤ 1001 / 1000 * δ * |S| →
      |v - Q| ≤ (1001 / 1000 * δ + 6 / 10 ^ 6 * M) * |S| := by
    intro v P Q S h1 h2
    have := abs_sub_le v P Q
    have := mul_nonneg (show 0 ≤ M by linarith) (abs_nonneg S)
    linarith
  fin_cases a
  · exact key m.u p4
  · exact key m.v p5

/-- C107 in `f32` for cameras of both kinds: triangulating measured pixels (C101) and projecting the point found back
into the cameras gives the measured pixels, up to `σ + 22 δ / z + 1.9e-4 D` focal lengths for a perspective camera and
the image of `σ M + 1.001 δ + 6e-6 M` units for an orthographic one. -/
theorem c107_f32_mixed_reprojection {lib' : Libm Format.b64} {os : List (View (F32 lib))} (h2 : 2 ≤ os.length)
    (hD1 : 1 ≤ D) (hD2 : D ≤ 40) (hM1 : 1 ≤ M) (hM2 : M ≤ 2 ^ 19) (hσ : σ ≤ 1 / 100) (hx : ∀ a, |x a| ≤ M)
    (hg : ∀ o ∈ os, o.Good32 D M x) (hm : ∀ o ∈ os, o.Measured σ M x)
    {a b : View (F32 lib)} (ha : a ∈ os) (hb : b ∈ os) {κ ρ : ℝ}
    (hκ : κ = 1 - absCos (a.sight x) (b.sight x) - 13 * σ - 6 / 10 ^ 4 * D - 71 / 10000000 * os.length)
    (hκ0 : 101 / 1000000000 < κ) (hρ : ρ = (13 * σ + 33 / 10 ^ 5) * M * √(os.length / κ))
    (hδ : δ = ρ + 64 / 1000000 * os.length / κ * (6 * M + (len x + ρ))) (hδM : 100 * δ ≤ M) :
    ∃ pt, bestIntersectionOfRays (Svd3.svd : TrySvd (F64 lib')) (os.map View.ray) = .ok pt ∧
      (∀ o, View.perspective o ∈ os → 20 * δ ≤ |o.position x 2| → |o.position x 0 / o.position x 2| ≤ 9 →
        |o.position x 1 / o.position x 2| ≤ 9 → ∀ i,
        Flt.isFinite (f := .b32) ((o.camera.worldToPixel pt).data 0 i) ∧
        |Flt.val (f := .b32) ((o.camera.worldToPixel pt).data 0 i) - Flt.val (f := .b32) (o.pixel.data 0 i)| ≤
          (σ + 22 * δ / |o.position x 2| + 19 / 10 ^ 5 * D) *
            |(![Flt.val (f := .b32) o.params.fx, Flt.val (f := .b32) o.params.fy] : Fin 2 → ℝ) i|) ∧
      ∀ o, View.orthographic o ∈ os → ∀ i,
        Flt.isFinite (f := .b32) ((o.camera.worldToPixel pt).data 0 i) ∧
        |Flt.val (f := .b32) ((o.camera.worldToPixel pt).data 0 i) - Flt.val (f := .b32) (o.pixel.data 0 i)| ≤
          (σ * M + 1001 / 1000 * δ + 6 / 10 ^ 6 * M) *
            |(![Flt.val (f := .b32) o.params.sx, Flt.val (f := .b32) o.params.sy] : Fin 2 → ℝ) i| := by
  obtain ⟨pt, e1, e2, e3⟩ := c101_f32_measured (lib' := lib') h2 hD1 (by linarith) hM1 (hM2.trans (by norm_num)) hσ hx hg hm
    ha hb hκ hκ0 hρ
  rw [← hδ] at e3
  refine ⟨pt, e1, fun o ho hd hs0 hs1 i => ?_, fun o ho i => ?_⟩
  · obtain ⟨f1, f2⟩ := c107_f32_near (hg _ ho) hD1 hD2 hM1 hM2 hx hs0 hs1 pt e2 e3 hd hδM i
    refine ⟨f1, ?_⟩
    have m : Measured σ x o := hm _ ho
    have hmi : |Flt.val (f := .b32) (o.pixel.data 0 i) - o.projection x i| ≤ σ * |(![Flt.val (f := .b32) o.params.fx, Flt.val (f := .b32) o.params.fy] : Fin 2 → ℝ) i| := by
      fin_cases i
      · exact m.u
      · exact m.v
    have := abs_sub_le (Flt.val (f := .b32) ((o.camera.worldToPixel pt).data 0 i)) (o.projection x i)
      (Flt.val (f := .b32) (o.pixel.data 0 i))
    rw [abs_sub_comm (o.projection x i)] at this
    linarith
  · obtain ⟨f1, f2⟩ := c107_f32_orthographic_near (hg _ ho) hM1 hM2 hx pt e2 e3 hδM i
    refine ⟨f1, ?_⟩
    have m : MeasuredParallel σ M x o := hm _ ho
    have hmi : |Flt.val (f := .b32) (o.pixel.data 0 i) - o.projection x i| ≤ σ * M * |(![Flt.val (f := .b32) o.params.sx, Flt.val (f := .b32) o.params.sy] : Fin 2 → ℝ) i| := by
      fin_cases i
      · exact m.u
      · exact m.v
    have := abs_sub_le (Flt.val (f := .b32) ((o.camera.worldToPixel pt).data 0 i)) (o.projection x i)
      (Flt.val (f := .b32) (o.pixel.data 0 i))
    rw [abs_sub_comm (o.projection x i)] at this
    linarith

/-! ### Non-vacuity -/

theorem sampleParallel32_exact : MeasuredParallel 0 8 ![4, 0, 4] (sampleParallel32 lib 5) := by
  have v1 : Flt.val (f := .b32) (digit32 lib 1) = 1 := (val_digit32 lib _).trans (by norm_num)
  have v0 : Flt.val (f := .b32) (digit32 lib 0) = 0 := (val_digit32 lib _).trans (by norm_num)
  have v5 : Flt.val (f := .b32) (digit32 lib 5) = 5 := (val_digit32 lib _).trans (by norm_num)
  have e1 : Flt.val (f := .b32) (sampleParallel32 lib 5).params.sx = 1 := v1
  have e2 : Flt.val (f := .b32) (sampleParallel32 lib 5).params.sy = 1 := v1
  have e3 : Flt.val (f := .b32) (sampleParallel32 lib 5).params.cx = 1 := v1
  have e4 : Flt.val (f := .b32) (sampleParallel32 lib 5).params.cy = 0 := v0
  have e5 : Flt.val (f := .b32) ((sampleParallel32 lib 5).pixel.data 0 0) = 5 := v5
  have e6 : Flt.val (f := .b32) ((sampleParallel32 lib 5).pixel.data 0 1) = 0 := v0
  refine ⟨fun a => ?_, ?_, ?_⟩
  · fin_cases a <;> exact trivial
  · rw [ParallelView.projection, e1, e2, e3, e4, e5, sampleParallel32_position]
    norm_num [Spec.orthographic]
  · rw [ParallelView.projection, e1, e2, e3, e4, e6, sampleParallel32_position]
    norm_num [Spec.orthographic]

/-- Non-vacuity of C107 in `f32` for cameras of both kinds: a perspective and an orthographic camera see the point
(4, 0, 4); the point found from the exact pixels is projected back to within a third of them. -/
example {lib' : Libm Format.b64} :
    ∃ pt, bestIntersectionOfRays (Svd3.svd : TrySvd (F64 lib'))
        [(sampleView32 lib 0 2).ray, (sampleParallel32 lib 5).ray] = .ok pt ∧
      (∀ i, |Flt.val (f := .b32) (((sampleView32 lib 0 2).camera.worldToPixel pt).data 0 i) -
        Flt.val (f := .b32) ((sampleView32 lib 0 2).pixel.data 0 i)| ≤ 1 / 3) ∧
      ∀ i, |Flt.val (f := .b32) (((sampleParallel32 lib 5).camera.worldToPixel pt).data 0 i) -
        Flt.val (f := .b32) ((sampleParallel32 lib 5).pixel.data 0 i)| ≤ 1 / 3 := by
  have ang := sampleParallel32_angle (lib := lib)
  have hlen : ((([.perspective (sampleView32 lib 0 2), .orthographic (sampleParallel32 lib 5)] : List (View (F32 lib))).length : ℕ) : ℝ) = 2 := by
    simp
  have mem : ∀ o ∈ ([.perspective (sampleView32 lib 0 2), .orthographic (sampleParallel32 lib 5)] : List (View (F32 lib))),
      o = .perspective (sampleView32 lib 0 2) ∨ o = .orthographic (sampleParallel32 lib 5) := by simp
  obtain ⟨κ, hκ⟩ : ∃ κ : ℝ, κ = 1 - absCos ((View.perspective (sampleView32 lib 0 2)).sight ![4, 0, 4])
      ((View.orthographic (sampleParallel32 lib 5)).sight ![4, 0, 4]) - 13 * 0 - 6 / 10 ^ 4 * 2 - 71 / 10000000 *
      ((([.perspective (sampleView32 lib 0 2), .orthographic (sampleParallel32 lib 5)] : List (View (F32 lib))).length : ℕ) : ℝ) := ⟨_, rfl⟩
  have k1 : 23 / 100 ≤ κ := by
    rw [hκ, hlen]
    norm_num
    linarith
  have l : len ![(4 : ℝ), 0, 4] ≤ 2 * 4 := len_le_entries fun a => by fin_cases a <;> norm_num
  have q1 : 2 / κ ≤ 9 := by rw [div_le_iff₀ (by linarith)]; linarith
  have q : √(2 / κ) ≤ 3 := by
    rw [Real.sqrt_le_left (by norm_num)]
    linarith
  have q2 : 64 / 1000000 * 2 / κ ≤ 64 / 1000000 * 9 := by rw [mul_div_assoc]; linarith
  have hδ : (13 * 0 + 33 / 10 ^ 5) * 8 * √(2 / κ) + 64 / 1000000 * 2 / κ *
      (6 * 8 + (len ![(4 : ℝ), 0, 4] + (13 * 0 + 33 / 10 ^ 5) * 8 * √(2 / κ))) ≤ 1 / 20 := by
    have l0 := len_nonneg ![(4 : ℝ), 0, 4]
    have s0 := Real.sqrt_nonneg (2 / κ)
    refine (add_le_add (mul_le_mul_of_nonneg_left q (by norm_num)) (mul_le_mul q2 (add_le_add_right
      (add_le_add l (mul_le_mul_of_nonneg_left q (by norm_num))) _) (by norm_num; positivity) (by norm_num))).trans ?_
    norm_num
  obtain ⟨pt, p1, p2, p3⟩ := c107_f32_mixed_reprojection (lib' := lib')
    (os := [.perspective (sampleView32 lib 0 2), .orthographic (sampleParallel32 lib 5)])
    (D := 2) (M := 8) (σ := 0) (x := ![4, 0, 4]) (by simp) (by norm_num) (by norm_num) (by norm_num) (by norm_num) (by norm_num)
    (fun a => by fin_cases a <;> norm_num)
    (fun o ho => by
      rcases mem o ho with rfl | rfl
      exacts [sampleView32_good 0 2 (Or.inl rfl), sampleParallel32_good 5])
    (fun o ho => by
      rcases mem o ho with rfl | rfl
      exacts [sampleView32_exact (Or.inl ⟨rfl, rfl⟩), sampleParallel32_exact])
    (a := .perspective (sampleView32 lib 0 2)) (b := .orthographic (sampleParallel32 lib 5)) (by simp) (by simp) hκ
    (by linarith) rfl rfl (by rw [hlen]; linarith)
  rw [hlen] at p2 p3
  have hpos := sampleView32_position (lib := lib) 0 2 ![4, 0, 4]
  have x0 : (sampleView32 lib 0 2).position ![4, 0, 4] 0 = 4 := by rw [hpos]; simp
  have x1 : (sampleView32 lib 0 2).position ![4, 0, 4] 1 = 0 := by rw [hpos]; simp
  have x2 : (sampleView32 lib 0 2).position ![4, 0, 4] 2 = 4 := by rw [hpos]; simp
  have v1 : Flt.val (f := .b32) (digit32 lib 1) = 1 := (val_digit32 lib _).trans (by norm_num)
  have e1 : Flt.val (f := .b32) (sampleView32 lib 0 2).params.fx = 1 := v1
  have e2 : Flt.val (f := .b32) (sampleView32 lib 0 2).params.fy = 1 := v1
  have e3 : Flt.val (f := .b32) (sampleParallel32 lib 5).params.sx = 1 := v1
  have e4 : Flt.val (f := .b32) (sampleParallel32 lib 5).params.sy = 1 := v1
  refine ⟨pt, p1, fun i => ?_, fun i => ?_⟩
  · have h := (p2 (sampleView32 lib 0 2) (by simp) (by rw [x2]; norm_num at hδ ⊢; linarith) (by rw [x0, x2]; norm_num)
      (by rw [x1, x2]; norm_num) i).2
    rw [x2, e1, e2, show |(![1, 1] : Fin 2 → ℝ) i| = 1 by fin_cases i <;> norm_num, _root_.mul_one] at h
    refine h.trans ?_
    norm_num at hδ ⊢
    linarith
  · have h := (p3 (sampleParallel32 lib 5) (by simp) i).2
    rw [e3, e4, show |(![1, 1] : Fin 2 → ℝ) i| = 1 by fin_cases i <;> norm_num, _root_.mul_one] at h
    refine h.trans ?_
    norm_num at hδ ⊢
    linarith

end

end CamGeom

import Verif.Props.FloatViewTriangulation32
import Verif.Props.Reprojection

/-!
# C107: reprojection with cameras placed by `from_view`
-/

namespace CamGeom
open Rounding ExtrinsicParameters Spec Matrix

/-- The images of nearby points in an exact view. -/
theorem view_projection_near {f : Format} {lib : Libm f} {s : Sighting (RustFloat f lib)} {Q : Quat ℝ} {δ : ℝ} {x y : Vec}
    (hQ : UnitQuat Q) (hpos : ∀ y, s.position y = Q.rotate (y - s.center))
    (hskew : |Flt.val (f := f) s.params.skew| ≤ |Flt.val (f := f) s.params.fx|) (hz : 0 < |s.position x 2|)
    (hs0 : |s.position x 0 / s.position x 2| ≤ 9) (hs1 : |s.position x 1 / s.position x 2| ≤ 9)
    (hd : distance y x ≤ δ) (hδ : 20 * δ ≤ |s.position x 2|) :
    94 / 100 * |s.position x 2| ≤ |s.position y 2| ∧ |s.position y 0 / s.position y 2| ≤ 10 ∧
    |s.position y 1 / s.position y 2| ≤ 10 ∧
    |s.projection y 0 - s.projection x 0| ≤ 22 * δ / |s.position x 2| * |Flt.val (f := f) s.params.fx| ∧
    |s.projection y 1 - s.projection x 1| ≤ 11 * δ / |s.position x 2| * |Flt.val (f := f) s.params.fy| := by
  have δ0 : 0 ≤ δ := (len_nonneg _).trans hd
  have hp : ∀ a, |s.position y a - s.position x a| ≤ δ := by
    intro a
    have e : s.position y - s.position x = Q.rotate (y - x) := by
      rw [hpos, hpos, ← rotate_sub, sub_sub_sub_cancel_right]
    rw [← Pi.sub_apply, e]
    exact (abs_apply_le_len _ a).trans ((len_rotate hQ _).le.trans hd)
  obtain ⟨hy, h0⟩ := slope_near hp hz (by linarith) 0 hs0
  obtain ⟨-, h1⟩ := slope_near hp hz (by linarith) 1 hs1
  set Z := |s.position x 2| with hZ
  have dz : δ / Z ≤ 1 / 20 := by
    rw [div_le_iff₀ hz]
    linarith
  have dz0 : 0 ≤ δ / Z := div_nonneg δ0 hz.le
  rw [mul_div_assoc] at h0 h1
  have i0 := abs_sub_abs_le_abs_sub (s.position y 0 / s.position y 2) (s.position x 0 / s.position x 2)
  have i1 := abs_sub_abs_le_abs_sub (s.position y 1 / s.position y 2) (s.position x 1 / s.position x 2)
  refine ⟨by linarith, by linarith, by linarith, ?_, ?_⟩
  · have e : s.projection y 0 - s.projection x 0 =
        Flt.val (f := f) s.params.fx * (s.position y 0 / s.position y 2 - s.position x 0 / s.position x 2) +
        Flt.val (f := f) s.params.skew * (s.position y 1 / s.position y 2 - s.position x 1 / s.position x 2) := by
      simp only [Sighting.projection, pinhole, Matrix.cons_val]
      ring
    rw [e, mul_div_assoc]
    refine (abs_add_le _ _).trans ?_
    rw [abs_mul, abs_mul]
    have j0 := mul_le_mul_of_nonneg_left h0 (abs_nonneg (Flt.val (f := f) s.params.fx))
    have j1 := mul_le_mul hskew h1 (abs_nonneg _) (abs_nonneg _)
    have j2 := mul_nonneg (abs_nonneg (Flt.val (f := f) s.params.fx)) dz0
    linarith
  · have e : s.projection y 1 - s.projection x 1 =
        Flt.val (f := f) s.params.fy * (s.position y 1 / s.position y 2 - s.position x 1 / s.position x 2) := by
      simp only [Sighting.projection, pinhole, Matrix.cons_val]
      ring
    rw [e, mul_div_assoc, abs_mul]
    have j0 := mul_le_mul_of_nonneg_left h1 (abs_nonneg (Flt.val (f := f) s.params.fy))
    have j2 := mul_nonneg (abs_nonneg (Flt.val (f := f) s.params.fy)) dz0
    linarith

section
variable {lib : Libm Format.b64} {M δ σ F : ℝ} {x : Vec} {s : Sighting (F64 lib)}

/-- C107 in `f64` for cameras placed by `from_view`: the pixel computed for a point within `δ` of `x` is near the projection
of `x` in the exact view. -/
theorem c107_f64_view_near (hl : lib.Accurate) (g : GoodSight M x s) (hw : WellPosed lib 10 s.camcenter s.lookat s.up)
    (hM1 : 1 ≤ M) (hM2 : M ≤ 900) (hF : 1 ≤ F) (hF' : F ≤ 2 ^ 20)
    (hp : ∀ y ∈ [s.params.fx, s.params.fy, s.params.skew, s.params.cx, s.params.cy], Flt.Bounded (f := .b64) F y)
    (hx : ∀ a, |x a| ≤ M) (hz : M / 500 ≤ |s.position x 2|) (hs0 : |s.position x 0 / s.position x 2| ≤ 9)
    (hs1 : |s.position x 1 / s.position x 2| ≤ 9) (pt : Points WorldFrame (F64 lib) 1)
    (hf : ∀ a, Flt.isFinite (f := .b64) (pt.data 0 a))
    (hd : distance (fun a => Flt.val (f := .b64) (pt.data 0 a)) x ≤ δ) (hδ : 20 * δ ≤ |s.position x 2|)
    (hδ' : 100 * δ ≤ M) (a : Fin 2) :
    Flt.isFinite (f := .b64) ((s.camera.worldToPixel pt).data 0 a) ∧
    |Flt.val (f := .b64) ((s.camera.worldToPixel pt).data 0 a) - s.projection x a| ≤
      22 * δ / |s.position x 2| *
        |(![Flt.val (f := .b64) s.params.fx, Flt.val (f := .b64) s.params.fy] : Fin 2 → ℝ) a| +
      6 / 10 ^ 11 * (M / |s.position x 2|) * F := by
  set fl := RustFloat.rounding .b64 lib with hfl
  have hzp : 0 < |s.position x 2| := by linarith
  have δ0 : 0 ≤ δ := (len_nonneg _).trans hd
  obtain ⟨Q, hQ, hpos, -⟩ := g.rotation hl
  set y : Vec := fun a => Flt.val (f := .b64) (pt.data 0 a) with hy
  obtain ⟨p1, p2, p3, p4, p5⟩ := view_projection_near hQ hpos g.skew hzp hs0 hs1 hd hδ
  have hyM : ∀ a, Flt.Bounded (f := .b64) (11 / 10 * M) (pt.data 0 a) := by
    intro a
    refine ⟨hf a, ?_⟩
    have i1 := (abs_apply_le_len (y - x) a).trans hd
    have i2 := abs_sub_abs_le_abs_sub (y a) (x a)
    have i3 := hx a
    rw [Pi.sub_apply] at i1
    show |y a| ≤ _
    linarith
  obtain ⟨k1, k2⟩ := c79_f64_world_to_pixel hl hw (M := 11 / 10 * M) (F := F) (r := 10) (by linarith)
    (by norm_num; linarith) (fun a => ⟨(g.center a).1, (g.center a).2.trans (by linarith)⟩) hF hF' s.params hp pt 0 hyM
    (s.position y) rfl (by linarith) p2 p3 a
  refine ⟨k1, ?_⟩
  have dz0 : 0 ≤ δ / |s.position x 2| := div_nonneg δ0 hzp.le
  have yz : 11 / 10 * M / |s.position y 2| ≤ 118 / 100 * (M / |s.position x 2|) := by
    rw [← mul_div_assoc, div_le_div_iff₀ (by linarith) hzp]
    have := mul_le_mul_of_nonneg_left p1 (show 0 ≤ M by linarith)
    have := mul_nonneg (show 0 ≤ M by linarith) hzp.le
    linarith
  have t0 : 0 ≤ M / |s.position x 2| * F := mul_nonneg (div_nonneg (by linarith) hzp.le) (by linarith)
  have k3 : |Flt.val (f := .b64) ((s.camera.worldToPixel pt).data 0 a) - s.projection y a| ≤
      6 / 10 ^ 11 * (M / |s.position x 2|) * F := by
    refine LE.le.trans k2 ?_
    have := mul_le_mul_of_nonneg_right yz (show 0 ≤ F by linarith)
    generalize 11 / 10 * M / |s.position y 2| = A at this ⊢
    generalize M / |s.position x 2| = B at this t0 ⊢
    linarith
  have k4 : |s.projection y a - s.projection x a| ≤ 22 * δ / |s.position x 2| *
      |(![Flt.val (f := .b64) s.params.fx, Flt.val (f := .b64) s.params.fy] : Fin 2 → ℝ) a| := by
    fin_cases a
    · exact p4
    · refine p5.trans (mul_le_mul_of_nonneg_right ?_ (abs_nonneg _))
      rw [mul_div_assoc, mul_div_assoc]
      linarith
  have := abs_sub_le (Flt.val (f := .b64) ((s.camera.worldToPixel pt).data 0 a)) (s.projection y a) (s.projection x a)
  linarith

/-- C107 in `f64`, reprojection with cameras placed by `from_view`: triangulating measured pixels (C104) and projecting
the point found back into the cameras gives the measured pixels, up to `σ + 22 δ / z` focal lengths and
`6e-11 (M / z) F` pixels, `δ` being the error of C104 and `z` the depth of the point. -/
theorem c107_f64_view_reprojection {lib' : Libm Format.b64} (hl : lib.Accurate) {os : List (Sighting (F64 lib))}
    (h2 : 2 ≤ os.length) (hM1 : 1 ≤ M) (hM2 : M ≤ 900) (hσ : σ ≤ 1 / 100) (hx : ∀ a, |x a| ≤ M)
    (hg : ∀ o ∈ os, GoodSight M x o) (hm : ∀ o ∈ os, Sighted σ x o)
    {a b : Sighting (F64 lib)} (ha : a ∈ os) (hb : b ∈ os) {κ ρ : ℝ}
    (hκ : κ = 1 - absCos (x - a.center) (x - b.center) - 12 * σ - 15 / 10000000 * os.length)
    (hκ0 : 101 / 1000000000 < κ) (hρ : ρ = (12 * σ + 52 / 10 ^ 12) * M * √(os.length / κ))
    (hδ : δ = ρ + 17 / 10000000 * os.length / κ * (M + (len x + ρ))) (hδM : 100 * δ ≤ M) :
    ∃ pt, bestIntersectionOfRays (Svd3.svd : TrySvd (F64 lib')) (os.map Sighting.ray) = .ok pt ∧
      ∀ o ∈ os, WellPosed lib 10 o.camcenter o.lookat o.up → 1 ≤ F → F ≤ 2 ^ 20 →
        (∀ y ∈ [o.params.fx, o.params.fy, o.params.skew, o.params.cx, o.params.cy], Flt.Bounded (f := .b64) F y) →
        M / 500 ≤ |o.position x 2| → 20 * δ ≤ |o.position x 2| → |o.position x 0 / o.position x 2| ≤ 9 →
        |o.position x 1 / o.position x 2| ≤ 9 → ∀ i,
        Flt.isFinite (f := .b64) ((o.camera.worldToPixel pt).data 0 i) ∧
        |Flt.val (f := .b64) ((o.camera.worldToPixel pt).data 0 i) - Flt.val (f := .b64) (o.pixel.data 0 i)| ≤
          (σ + 22 * δ / |o.position x 2|) *
            |(![Flt.val (f := .b64) o.params.fx, Flt.val (f := .b64) o.params.fy] : Fin 2 → ℝ) i| +
          6 / 10 ^ 11 * (M / |o.position x 2|) * F := by
  obtain ⟨pt, e1, e2, e3⟩ := c104_f64_measured (lib' := lib') hl h2 hM1 (hM2.trans (by norm_num)) hσ hx hg hm ha hb hκ hκ0 hρ
  rw [← hδ] at e3
  refine ⟨pt, e1, fun o ho hw hF hF' hp hz hd hs0 hs1 i => ?_⟩
  obtain ⟨f1, f2⟩ := c107_f64_view_near hl (hg o ho) hw hM1 hM2 hF hF' hp hx hz hs0 hs1 pt e2 e3 hd hδM i
  refine ⟨f1, ?_⟩
  have hmi : |Flt.val (f := .b64) (o.pixel.data 0 i) - o.projection x i| ≤
      σ * |(![Flt.val (f := .b64) o.params.fx, Flt.val (f := .b64) o.params.fy] : Fin 2 → ℝ) i| := by
    fin_cases i
    · exact (hm o ho).u
    · exact (hm o ho).v
  have := abs_sub_le (Flt.val (f := .b64) ((o.camera.worldToPixel pt).data 0 i)) (o.projection x i)
    (Flt.val (f := .b64) (o.pixel.data 0 i))
  rw [abs_sub_comm (o.projection x i)] at this
  linarith

/-! ### Non-vacuity -/

/-- Non-vacuity of C107 in `f64` with `from_view`: two cameras 8 apart look at the point (4, 0, 4) from directions at a right
angle; the point found from the exact pixels is projected back to within a thousandth of them. -/
example {lib' : Libm Format.b64} (hl : lib.Accurate) :
    ∃ pt, bestIntersectionOfRays (Svd3.svd : TrySvd (F64 lib'))
        [(sampleSight lib 0).ray, (sampleSight lib 8).ray] = .ok pt ∧
      ∀ i, |Flt.val (f := .b64) (((sampleSight lib 0).camera.worldToPixel pt).data 0 i) -
        Flt.val (f := .b64) ((sampleSight lib 0).pixel.data 0 i)| ≤ 1 / 1000 := by
  have hlen : ((([sampleSight lib 0, sampleSight lib 8] : List (Sighting (F64 lib))).length : ℕ) : ℝ) = 2 := by simp
  have mem : ∀ o ∈ [sampleSight lib 0, sampleSight lib 8], o = sampleSight lib 0 ∨ o = sampleSight lib 8 := by simp
  have l : len ![(4 : ℝ), 0, 4] ≤ 2 * 4 := len_le_entries fun a => by fin_cases a <;> norm_num
  have q : √((2 : ℝ) / (1 - 0 - 12 * 0 - 15 / 10000000 * 2)) ≤ 3 / 2 := by
    rw [Real.sqrt_le_left (by norm_num)]
    norm_num
  have hδ : (12 * 0 + 52 / 10 ^ 12) * 8 * √((2 : ℝ) / (1 - 0 - 12 * 0 - 15 / 10000000 * 2)) + 17 / 10000000 * 2 / (1 - 0 - 12 * 0 - 15 / 10000000 * 2) *
      (8 + (len ![(4 : ℝ), 0, 4] + (12 * 0 + 52 / 10 ^ 12) * 8 * √((2 : ℝ) / (1 - 0 - 12 * 0 - 15 / 10000000 * 2)))) ≤ 1 / 10000 := by
    refine (add_le_add (mul_le_mul_of_nonneg_left q (by norm_num)) (mul_le_mul_of_nonneg_left (add_le_add_right
      (add_le_add l (mul_le_mul_of_nonneg_left q (by norm_num))) _) (by norm_num))).trans ?_
    norm_num
  obtain ⟨pt, p1, p2⟩ := c107_f64_view_reprojection (lib' := lib') hl (os := [sampleSight lib 0, sampleSight lib 8])
    (M := 8) (σ := 0) (F := 1) (x := ![4, 0, 4]) (by simp) (by norm_num) (by norm_num) (by norm_num)
    (fun a => by fin_cases a <;> norm_num)
    (fun o ho => by
      rcases mem o ho with rfl | rfl
      exacts [sampleSight_good (Or.inl rfl), sampleSight_good (Or.inr rfl)])
    (fun o ho => by
      rcases mem o ho with rfl | rfl
      exacts [sampleSight_sighted (Or.inl rfl), sampleSight_sighted (Or.inr rfl)])
    (a := sampleSight lib 0) (b := sampleSight lib 8) (by simp) (by simp) rfl
    (by rw [sampleSight_angle, hlen]; norm_num) rfl rfl (by rw [sampleSight_angle, hlen]; linarith)
  rw [sampleSight_angle, hlen] at p2
  have hpos := sampleSight_position (lib := lib) (c := 0) (Or.inl rfl)
  have x0 : (sampleSight lib 0).position ![4, 0, 4] 0 = 0 := by rw [hpos]; rfl
  have x1 : (sampleSight lib 0).position ![4, 0, 4] 1 = 0 := by rw [hpos]; rfl
  have x2 : (sampleSight lib 0).position ![4, 0, 4] 2 = √32 := by rw [hpos]; rfl
  have r5 : 5 ≤ √32 := Real.le_sqrt_of_sq_le (by norm_num)
  have x3 : |√32| = √32 := abs_of_nonneg (by linarith)
  have v1 : Flt.val (f := .b64) (digit lib 1) = 1 := (val_digit lib _).trans (by norm_num)
  have e1 : Flt.val (f := .b64) (sampleSight lib 0).params.fx = 1 := v1
  have e2 : Flt.val (f := .b64) (sampleSight lib 0).params.fy = 1 := v1
  have bd : ∀ (k : Fin 10) {B : ℝ}, ((k : ℕ) : ℝ) ≤ B → Flt.Bounded (f := .b64) B (digit lib k) := fun k B hk =>
    ⟨trivial, by rw [val_digit lib, abs_of_nonneg (Nat.cast_nonneg _)]; exact hk⟩
  have hw := (sampleSight_good (lib := lib) (c := 0) (Or.inl rfl)).view
  refine ⟨pt, p1, fun i => ?_⟩
  have h := (p2 (sampleSight lib 0) (by simp) ⟨fun a => by fin_cases a <;> exact bd _ (by norm_num),
    fun a => by fin_cases a <;> exact bd _ (by norm_num), fun a => by fin_cases a <;> exact bd _ (by norm_num),
    hw.dir_len, hw.up_len, hw.angle⟩ le_rfl (by norm_num) (fun y hy => by
      simp only [List.mem_cons, List.not_mem_nil, or_false] at hy
      rcases hy with rfl | rfl | rfl | rfl | rfl <;> exact bd _ (by norm_num))
    (by rw [x2, x3]; linarith) (by rw [x2, x3]; norm_num at hδ ⊢; linarith) (by rw [x0, zero_div]; norm_num)
    (by rw [x1, zero_div]; norm_num) i).2
  rw [x2, x3, e1, e2, show |(![1, 1] : Fin 2 → ℝ) i| = 1 by fin_cases i <;> norm_num, _root_.mul_one, _root_.mul_one] at h
  refine h.trans ?_
  have i1 : 8 / √32 ≤ 2 := by rw [div_le_iff₀ (by linarith)]; linarith
  have i2 := div_le_div_of_nonneg_left (show (0 : ℝ) ≤ 22 * (1 / 10000) by norm_num) (by norm_num) r5
  have i3 := div_le_div_of_nonneg_right (mul_le_mul_of_nonneg_left hδ (show (0 : ℝ) ≤ 22 by norm_num)) (show 0 ≤ √32 by linarith)
  norm_num at i1 i2 i3 ⊢
  linarith

end

section
variable {lib : Libm Format.b32} {M δ σ F : ℝ} {x : Vec} {s : Sighting (F32 lib)}

/-- C107 in `f32` for cameras placed by `from_view`: the pixel computed for a point within `δ` of `x` is near the projection
of `x` in the exact view. -/
theorem c107_f32_view_near (hl : lib.Accurate) (g : GoodSight32 M x s) (hw : WellPosed lib 10 s.camcenter s.lookat s.up)
    (hM1 : 1 ≤ M) (hM2 : M ≤ 900) (hF : 1 ≤ F) (hF' : F ≤ 2 ^ 20)
    (hp : ∀ y ∈ [s.params.fx, s.params.fy, s.params.skew, s.params.cx, s.params.cy], Flt.Bounded (f := .b32) F y)
    (hx : ∀ a, |x a| ≤ M) (hz : M / 500 ≤ |s.position x 2|) (hs0 : |s.position x 0 / s.position x 2| ≤ 9)
    (hs1 : |s.position x 1 / s.position x 2| ≤ 9) (pt : Points WorldFrame (F32 lib) 1)
    (hf : ∀ a, Flt.isFinite (f := .b32) (pt.data 0 a))
    (hd : distance (fun a => Flt.val (f := .b32) (pt.data 0 a)) x ≤ δ) (hδ : 20 * δ ≤ |s.position x 2|)
    (hδ' : 100 * δ ≤ M) (a : Fin 2) :
    Flt.isFinite (f := .b32) ((s.camera.worldToPixel pt).data 0 a) ∧
    |Flt.val (f := .b32) ((s.camera.worldToPixel pt).data 0 a) - s.projection x a| ≤
      22 * δ / |s.position x 2| *
        |(![Flt.val (f := .b32) s.params.fx, Flt.val (f := .b32) s.params.fy] : Fin 2 → ℝ) a| +
      23 / 10 ^ 3 * (M / |s.position x 2|) * F := by
  set fl := RustFloat.rounding .b32 lib with hfl
  have hzp : 0 < |s.position x 2| := by linarith
  have δ0 : 0 ≤ δ := (len_nonneg _).trans hd
  obtain ⟨Q, hQ, hpos, -⟩ := g.rotation hl
  set y : Vec := fun a => Flt.val (f := .b32) (pt.data 0 a) with hy
  obtain ⟨p1, p2, p3, p4, p5⟩ := view_projection_near hQ hpos g.skew hzp hs0 hs1 hd hδ
  have hyM : ∀ a, Flt.Bounded (f := .b32) (11 / 10 * M) (pt.data 0 a) := by
    intro a
    refine ⟨hf a, ?_⟩
    have i1 := (abs_apply_le_len (y - x) a).trans hd
    have i2 := abs_sub_abs_le_abs_sub (y a) (x a)
    have i3 := hx a
    rw [Pi.sub_apply] at i1
    show |y a| ≤ _
    linarith
  obtain ⟨k1, k2⟩ := c79_f32_world_to_pixel hl hw (M := 11 / 10 * M) (F := F) (r := 10) (by linarith)
    (by norm_num; linarith) (fun a => ⟨(g.center a).1, (g.center a).2.trans (by linarith)⟩) hF hF' s.params hp pt 0 hyM
    (s.position y) rfl (by linarith) p2 p3 a
  refine ⟨k1, ?_⟩
  have dz0 : 0 ≤ δ / |s.position x 2| := div_nonneg δ0 hzp.le
  have yz : 11 / 10 * M / |s.position y 2| ≤ 118 / 100 * (M / |s.position x 2|) := by
    rw [← mul_div_assoc, div_le_div_iff₀ (by linarith) hzp]
    have := mul_le_mul_of_nonneg_left p1 (show 0 ≤ M by linarith)
    have := mul_nonneg (show 0 ≤ M by linarith) hzp.le
    linarith
  have t0 : 0 ≤ M / |s.position x 2| * F := mul_nonneg (div_nonneg (by linarith) hzp.le) (by linarith)
  have k3 : |Flt.val (f := .b32) ((s.camera.worldToPixel pt).data 0 a) - s.projection y a| ≤
      23 / 10 ^ 3 * (M / |s.position x 2|) * F := by
    refine LE.le.trans k2 ?_
    have := mul_le_mul_of_nonneg_right yz (show 0 ≤ F by linarith)
    generalize 11 / 10 * M / |s.position y 2| = A at this ⊢
    generalize M / |s.position x 2| = B at this t0 ⊢
    linarith
  have k4 : |s.projection y a - s.projection x a| ≤ 22 * δ / |s.position x 2| *
      |(![Flt.val (f := .b32) s.params.fx, Flt.val (f := .b32) s.params.fy] : Fin 2 → ℝ) a| := by
    fin_cases a
    · exact p4
    · refine p5.trans (mul_le_mul_of_nonneg_right ?_ (abs_nonneg _))
      rw [mul_div_assoc, mul_div_assoc]
      linarith
  have := abs_sub_le (Flt.val (f := .b32) ((s.camera.worldToPixel pt).data 0 a)) (s.projection y a) (s.projection x a)
  linarith

/-- C107 in `f32`, reprojection with cameras placed by `from_view`: triangulating measured pixels (C106) and projecting
the point found back into the cameras gives the measured pixels, up to `σ + 22 δ / z` focal lengths and
`0.023 (M / z) F` pixels, `δ` being the error of C106 and `z` the depth of the point. -/
theorem c107_f32_view_reprojection {lib' : Libm Format.b64} (hl : lib.Accurate) {os : List (Sighting (F32 lib))}
    (h2 : 2 ≤ os.length) (hM1 : 1 ≤ M) (hM2 : M ≤ 900) (hσ : σ ≤ 1 / 100) (hx : ∀ a, |x a| ≤ M)
    (hg : ∀ o ∈ os, GoodSight32 M x o) (hm : ∀ o ∈ os, Sighted σ x o)
    {a b : Sighting (F32 lib)} (ha : a ∈ os) (hb : b ∈ os) {κ ρ : ℝ}
    (hκ : κ = 1 - absCos (x - a.center) (x - b.center) - 12 * σ - 1 / 1000 - 71 / 10000000 * os.length)
    (hκ0 : 101 / 1000000000 < κ) (hρ : ρ = (12 * σ + 23 / 10 ^ 4) * M * √(os.length / κ))
    (hδ : δ = ρ + 65 / 1000000 * os.length / κ * (M + (len x + ρ))) (hδM : 100 * δ ≤ M) :
    ∃ pt, bestIntersectionOfRays (Svd3.svd : TrySvd (F64 lib')) (os.map Sighting.ray) = .ok pt ∧
      ∀ o ∈ os, WellPosed lib 10 o.camcenter o.lookat o.up → 1 ≤ F → F ≤ 2 ^ 20 →
        (∀ y ∈ [o.params.fx, o.params.fy, o.params.skew, o.params.cx, o.params.cy], Flt.Bounded (f := .b32) F y) →
        M / 500 ≤ |o.position x 2| → 20 * δ ≤ |o.position x 2| → |o.position x 0 / o.position x 2| ≤ 9 →
        |o.position x 1 / o.position x 2| ≤ 9 → ∀ i,
        Flt.isFinite (f := .b32) ((o.camera.worldToPixel pt).data 0 i) ∧
        |Flt.val (f := .b32) ((o.camera.worldToPixel pt).data 0 i) - Flt.val (f := .b32) (o.pixel.data 0 i)| ≤
          (σ + 22 * δ / |o.position x 2|) *
            |(![Flt.val (f := .b32) o.params.fx, Flt.val (f := .b32) o.params.fy] : Fin 2 → ℝ) i| +
          23 / 10 ^ 3 * (M / |o.position x 2|) * F := by
  obtain ⟨pt, e1, e2, e3⟩ := c106_f32_measured (lib' := lib') hl h2 hM1 (hM2.trans (by norm_num)) hσ hx hg hm ha hb hκ hκ0 hρ
  rw [← hδ] at e3
  refine ⟨pt, e1, fun o ho hw hF hF' hp hz hd hs0 hs1 i => ?_⟩
  obtain ⟨f1, f2⟩ := c107_f32_view_near hl (hg o ho) hw hM1 hM2 hF hF' hp hx hz hs0 hs1 pt e2 e3 hd hδM i
  refine ⟨f1, ?_⟩
  have hmi : |Flt.val (f := .b32) (o.pixel.data 0 i) - o.projection x i| ≤
      σ * |(![Flt.val (f := .b32) o.params.fx, Flt.val (f := .b32) o.params.fy] : Fin 2 → ℝ) i| := by
    fin_cases i
    · exact (hm o ho).u
    · exact (hm o ho).v
  have := abs_sub_le (Flt.val (f := .b32) ((o.camera.worldToPixel pt).data 0 i)) (o.projection x i)
    (Flt.val (f := .b32) (o.pixel.data 0 i))
  rw [abs_sub_comm (o.projection x i)] at this
  linarith

/-! ### Non-vacuity -/

/-- Non-vacuity of C107 in `f32` with `from_view`: two cameras 8 apart look at the point (4, 0, 4) from directions at a right
angle; the point found from the exact pixels is projected back to within a third of them. -/
example {lib' : Libm Format.b64} (hl : lib.Accurate) :
    ∃ pt, bestIntersectionOfRays (Svd3.svd : TrySvd (F64 lib'))
        [(sampleSight32 lib 0).ray, (sampleSight32 lib 8).ray] = .ok pt ∧
      ∀ i, |Flt.val (f := .b32) (((sampleSight32 lib 0).camera.worldToPixel pt).data 0 i) -
        Flt.val (f := .b32) ((sampleSight32 lib 0).pixel.data 0 i)| ≤ 1 / 3 := by
  have hlen : ((([sampleSight32 lib 0, sampleSight32 lib 8] : List (Sighting (F32 lib))).length : ℕ) : ℝ) = 2 := by simp
  have mem : ∀ o ∈ [sampleSight32 lib 0, sampleSight32 lib 8], o = sampleSight32 lib 0 ∨ o = sampleSight32 lib 8 := by simp
  have l : len ![(4 : ℝ), 0, 4] ≤ 2 * 4 := len_le_entries fun a => by fin_cases a <;> norm_num
  have q : √((2 : ℝ) / (1 - 0 - 12 * 0 - 1 / 1000 - 71 / 10000000 * 2)) ≤ 3 / 2 := by
    rw [Real.sqrt_le_left (by norm_num)]
    norm_num
  have hδ : (12 * 0 + 23 / 10 ^ 4) * 8 * √((2 : ℝ) / (1 - 0 - 12 * 0 - 1 / 1000 - 71 / 10000000 * 2)) + 65 / 1000000 * 2 / (1 - 0 - 12 * 0 - 1 / 1000 - 71 / 10000000 * 2) *
      (8 + (len ![(4 : ℝ), 0, 4] + (12 * 0 + 23 / 10 ^ 4) * 8 * √((2 : ℝ) / (1 - 0 - 12 * 0 - 1 / 1000 - 71 / 10000000 * 2)))) ≤ 3 / 100 := by
    refine (add_le_add (mul_le_mul_of_nonneg_left q (by norm_num)) (mul_le_mul_of_nonneg_left (add_le_add_right
      (add_le_add l (mul_le_mul_of_nonneg_left q (by norm_num))) _) (by norm_num))).trans ?_
    norm_num
  obtain ⟨pt, p1, p2⟩ := c107_f32_view_reprojection (lib' := lib') hl (os := [sampleSight32 lib 0, sampleSight32 lib 8])
    (M := 8) (σ := 0) (F := 1) (x := ![4, 0, 4]) (by simp) (by norm_num) (by norm_num) (by norm_num)
    (fun a => by fin_cases a <;> norm_num)
    (fun o ho => by
      rcases mem o ho with rfl | rfl
      exacts [sampleSight32_good (Or.inl rfl), sampleSight32_good (Or.inr rfl)])
    (fun o ho => by
      rcases mem o ho with rfl | rfl
      exacts [sampleSight32_sighted (Or.inl rfl), sampleSight32_sighted (Or.inr rfl)])
    (a := sampleSight32 lib 0) (b := sampleSight32 lib 8) (by simp) (by simp) rfl
    (by rw [sampleSight32_angle, hlen]; norm_num) rfl rfl (by rw [sampleSight32_angle, hlen]; linarith)
  rw [sampleSight32_angle, hlen] at p2
  have hpos := sampleSight32_position (lib := lib) (c := 0) (Or.inl rfl)
  have x0 : (sampleSight32 lib 0).position ![4, 0, 4] 0 = 0 := by rw [hpos]; rfl
  have x1 : (sampleSight32 lib 0).position ![4, 0, 4] 1 = 0 := by rw [hpos]; rfl
  have x2 : (sampleSight32 lib 0).position ![4, 0, 4] 2 = √32 := by rw [hpos]; rfl
  have r5 : 5 ≤ √32 := Real.le_sqrt_of_sq_le (by norm_num)
  have x3 : |√32| = √32 := abs_of_nonneg (by linarith)
  have v1 : Flt.val (f := .b32) (digit32 lib 1) = 1 := (val_digit32 lib _).trans (by norm_num)
  have e1 : Flt.val (f := .b32) (sampleSight32 lib 0).params.fx = 1 := v1
  have e2 : Flt.val (f := .b32) (sampleSight32 lib 0).params.fy = 1 := v1
  have bd : ∀ (k : Fin 10) {B : ℝ}, ((k : ℕ) : ℝ) ≤ B → Flt.Bounded (f := .b32) B (digit32 lib k) := fun k B hk =>
    ⟨trivial, by rw [val_digit32 lib, abs_of_nonneg (Nat.cast_nonneg _)]; exact hk⟩
  have hw := (sampleSight32_good (lib := lib) (c := 0) (Or.inl rfl)).view
  refine ⟨pt, p1, fun i => ?_⟩
  have h := (p2 (sampleSight32 lib 0) (by simp) ⟨fun a => by fin_cases a <;> exact bd _ (by norm_num),
    fun a => by fin_cases a <;> exact bd _ (by norm_num), fun a => by fin_cases a <;> exact bd _ (by norm_num),
    hw.dir_len, hw.up_len, hw.angle⟩ le_rfl (by norm_num) (fun y hy => by
      simp only [List.mem_cons, List.not_mem_nil, or_false] at hy
      rcases hy with rfl | rfl | rfl | rfl | rfl <;> exact bd _ (by norm_num))
    (by rw [x2, x3]; linarith) (by rw [x2, x3]; norm_num at hδ ⊢; linarith) (by rw [x0, zero_div]; norm_num)
    (by rw [x1, zero_div]; norm_num) i).2
  rw [x2, x3, e1, e2, show |(![1, 1] : Fin 2 → ℝ) i| = 1 by fin_cases i <;> norm_num, _root_.mul_one, _root_.mul_one] at h
  refine h.trans ?_
  have i1 : 8 / √32 ≤ 2 := by rw [div_le_iff₀ (by linarith)]; linarith
  have i2 := div_le_div_of_nonneg_left (show (0 : ℝ) ≤ 22 * (3 / 100) by norm_num) (by norm_num) r5
  have i3 := div_le_div_of_nonneg_right (mul_le_mul_of_nonneg_left hδ (show (0 : ℝ) ≤ 22 by norm_num)) (show 0 ≤ √32 by linarith)
  norm_num at i1 i2 i3 ⊢
  linarith

end

end CamGeom

import Verif.Props.Batch
import Verif.Props.FromView
import Verif.Props.Projective
import Verif.Props.RayIntersection

/-!
# The crate's documented examples and tests, in the model

These are single cases: a check that the model computes what the crate's documentation says the code prints,
not properties.
-/

namespace CamGeom
open Spec Matrix ExtrinsicParameters

theorem len_axis (x : ℝ) (hx : 0 ≤ x) : len ![x, 0, 0] = x ∧ len ![-x, 0, 0] = x ∧ len ![0, x, 0] = x ∧
    len ![0, -x, 0] = x ∧ len ![0, 0, x] = x := by
  simp [len, Fin.sum_univ_three, Real.sqrt_sq hx]

/-- `/repo/src/lib.rs:7-70`: the camera at (10,0,0) looking at the origin sees (1,0,0) at (640,480) and
(0,1,0) at (650,480). -/
example {na : Linalg ℝ} (hna : RotationContract na) :
    let cam := Camera.mk (IntrinsicParametersPerspective.ofParams (⟨100, 100, 0, 640, 480⟩ : PerspectiveParams ℝ))
      (fromView na ![10, 0, 0] ![0, 0, 0] ![0, 0, 1])
    (cam.worldToPixel ⟨![![1, 0, 0], ![0, 1, 0]]⟩).data = ![![640, 480], ![650, 480]] := by
  intro cam
  have hlc : (![0, 0, 0] : V3 ℝ) - ![10, 0, 0] = ![-10, 0, 0] := by
    funext a; fin_cases a <;> simp
  have hcr : (![-10, 0, 0] : V3 ℝ) ⨯₃ ![0, 0, 1] = ![0, 10, 0] := by
    funext a; fin_cases a <;> simp [cross_apply]
  have hu : ((![0, 0, 0] : V3 ℝ) - ![10, 0, 0]) ⨯₃ ![0, 0, 1] ≠ 0 := by
    rw [hlc, hcr]
    intro h
    have := congrFun h 1
    norm_num at this
  obtain ⟨hv, hc, hf, -⟩ := c07_looks_at hna ![10, 0, 0] ![0, 0, 0] ![0, 0, 1] hu
  obtain ⟨-, -, -, hr⟩ := c08_up_right hna ![10, 0, 0] ![0, 0, 0] ![0, 0, 1] hu
  rw [hlc, hcr, (len_axis 10 (by norm_num)).2.2.1] at hr
  rw [distance, hlc, (len_axis 10 (by norm_num)).2.1] at hf
  have key : ∀ (x : Vec) (r f : ℝ), f ≠ 0 → x = ![10, 0, 0] + r • ![0, 1, 0] + f • ![-1, 0, 0] →
      (cam.worldToPixel (.single x)).data 0 = ![640 + 100 * r / f, 480] := by
    intro x r f hf0 hx
    have := c52_perspective ⟨100, 100, 0, 640, 480⟩ hv r 0 f hf0
    rw [hc, hf, hr] at this
    rw [hx]
    have hv' : (![10, 0, 0] : Vec) + r • ![0, 1, 0] + f • ![-1, 0, 0] =
        ![10, 0, 0] + r • (1 / 10 : ℝ) • ![0, 10, 0] +
          (0 : ℝ) • (fromView na ![10, 0, 0] ![0, 0, 0] ![0, 0, 1]).up + f • (1 / 10 : ℝ) • ![-10, 0, 0] := by
      funext a; fin_cases a <;> simp
    rw [hv', this]
    simp
  funext i
  rw [c01_persp_world_to_pixel]
  fin_cases i
  · rw [key _ 0 9 (by norm_num) (by funext a; fin_cases a <;> norm_num)]
    funext a; fin_cases a <;> norm_num
  · rw [key _ 1 10 (by norm_num) (by funext a; fin_cases a <;> norm_num)]
    funext a; fin_cases a <;> norm_num

/-- `/repo/src/lib.rs:73-105`: the rays (1,0,0) + t(0,1,0) and (0,1,0) + t(1,0,0) meet at (1,1,0). -/
example {trySvd : TrySvd ℝ} (hs : SvdContract trySvd) {pt : Points WorldFrame ℝ 1}
    (hb : bestIntersectionOfRays trySvd
      [(⟨![1, 0, 0], ![0, 1, 0]⟩ : Ray WorldFrame ℝ), ⟨![0, 1, 0], ![1, 0, 0]⟩] = .ok pt) :
    pt.data 0 = ![1, 1, 0] := by
  refine c32_common_point hs ?_ ?_ ?_ hb
  · intro r hr
    simp only [List.mem_cons, List.not_mem_nil, or_false] at hr
    rcases hr with rfl | rfl <;> intro h
    · simpa using congrFun h 1
    · simpa using congrFun h 0
  · refine ⟨_, List.mem_cons_self, _, List.mem_cons_of_mem _ List.mem_cons_self, ?_⟩
    rw [(len_axis 1 (by norm_num)).1, (len_axis 1 (by norm_num)).2.2.1]
    have : (![0, 1, 0] : Vec) ⬝ᵥ ![1, 0, 0] = 0 := by simp
    show |(![0, 1, 0] : Vec) ⬝ᵥ ![1, 0, 0]| < _
    rw [this]
    norm_num
  · intro r hr
    simp only [List.mem_cons, List.not_mem_nil, or_false] at hr
    rcases hr with rfl | rfl
    · exact ⟨1, by funext a; fin_cases a <;> simp⟩
    · exact ⟨1, by funext a; fin_cases a <;> simp⟩

end CamGeom

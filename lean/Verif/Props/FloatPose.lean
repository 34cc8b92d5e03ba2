import Verif.Lemmas.InRangeView
import Verif.Lemmas.RoundingTight
import Verif.Lemmas.FloatTolerance
import Verif.Props.FloatExact

/-!
# C96: frame changes and camera axes in `f64` and `f32`

`world_to_camera` and `camera_to_world` undo each other and keep distances up to rounding.  `right()`, `up()` and
`forward()` are computed as the normalized difference between a point next to the camera and the camera centre; their
error grows with the distance of the camera from the origin, and for a camera far away they are NaN.
-/

namespace CamGeom
open Rounding ExtrinsicParameters Spec Matrix

section
variable {q : Quat ℝ} {ε : ℝ}

theorem abs_len_rotate (h : |quatNormSq q - 1| ≤ ε) (v : Vec) :
    |len (q.rotate v) - len v| ≤ 4 * ε * (1 + ε) * len v := by
  have hε : 0 ≤ ε := (abs_nonneg _).trans h
  have hv := len_nonneg v
  have hr := len_nonneg (q.rotate v)
  rcases hv.eq_or_lt with h0 | h0
  · have h1 := len_rotate_le h v
    rw [← h0] at h1 ⊢
    rw [MulZeroClass.mul_zero] at h1 ⊢
    rw [le_antisymm h1 hr, sub_zero, abs_zero]
  have e := len_rotate_defect q v
  have c1 := pow_le_pow_left₀ (len_nonneg _) (len_cross_le q.vector v) 2
  rw [mul_pow] at c1
  have c2 := c1.trans (mul_le_mul_of_nonneg_right (len_vector_le h) (sq_nonneg (len v)))
  have c3 : |4 * (quatNormSq q - 1) * len (q.vector ⨯₃ v) ^ 2| ≤ 4 * ε * ((1 + ε) * len v ^ 2) := by
    rw [abs_mul, abs_mul, abs_of_pos (by norm_num : (0 : ℝ) < 4), abs_of_nonneg (sq_nonneg (len (q.vector ⨯₃ v)))]
    exact mul_le_mul (by linarith) c2 (sq_nonneg _) (by linarith)
  have c4 : |len (q.rotate v) - len v| * (len (q.rotate v) + len v) ≤ 4 * ε * (1 + ε) * len v * len v := by
    rw [← abs_of_nonneg (by linarith : 0 ≤ len (q.rotate v) + len v), ← abs_mul,
      show (len (q.rotate v) - len v) * (len (q.rotate v) + len v) = len (q.rotate v) ^ 2 - len v ^ 2 by ring, e,
      add_sub_cancel_left]
    exact c3.trans (le_of_eq (by ring))
  refine le_of_mul_le_mul_right (le_trans ?_ c4) h0
  exact mul_le_mul_of_nonneg_left (by linarith) (abs_nonneg _)

/-- The exact frame changes, one after the other. -/
theorem exact_trip (h : |quatNormSq q - 1| ≤ ε) (h1 : ε ≤ 1 / 4) (c x : Vec) :
    distance (q.inverse.rotate (q.rotate x + (fromRotationAndCamcenter q c).translation) +
      q.inverse.rotate (-(fromRotationAndCamcenter q c).translation)) x ≤ 5 * ε * len x := by
  have e : q.inverse.rotate (q.rotate x + (fromRotationAndCamcenter q c).translation) +
      q.inverse.rotate (-(fromRotationAndCamcenter q c).translation) = q.inverse.rotate (q.rotate x) := by
    rw [← rotate_add, add_neg_cancel_right]
  rw [e]
  exact len_defect_le h h1 x

end

section
variable {R : Type} [Scalar R] {fl : Rounding R}

set_option maxHeartbeats 1000000 in
/-- The computed axis, in terms of the errors of `camera_to_world`. -/
theorem lookdir_near (r : RoundingRange fl) (m : RoundingMore fl) (hu : fl.u ≤ 1 / 1000) (hω : fl.ω ≤ 1 / 8) {q : Quat R}
    {ε : ℝ} (hε : |quatNormSq (fl.quat q) - 1| ≤ ε) (hε1 : ε ≤ 1 / 1000) (hq : QInRange fl q) {c : V3 R} {k : ℕ}
    {M δ η : ℝ} (hM1 : 1 ≤ M) (hMk : M ≤ 2 ^ k) (hcf : ∀ a, fl.isFinite (c a)) (hc : ∀ a, |fl.val (c a)| ≤ M)
    (hk : 2 * (k + 16) + 2 ≤ r.top)
    (hδ : ((1 + fl.u) ^ 15 - 1) * (rotTight (1 + ε) fl.ω M + rotTight (1 + ε) fl.ω (transTight (1 + ε) fl.ω M)) ≤ δ)
    (hη : η = (1 + fl.u) * (δ + 14 * ε * M) + 2 * fl.u) (hη1 : 21 * η ≤ 1) {E : V3 R} {E' : Vec}
    (hE : ∀ a, fl.isFinite (E a) ∧ fl.val (E a) = E' a) (hE' : len E' = 1) (a : Fin 3) :
    fl.isFinite ((fromRotationAndCamcenter q c).lookdir E a) ∧
      |fl.val ((fromRotationAndCamcenter q c).lookdir E a) - (fl.quat q).inverse.rotate E' a| ≤
        11 * fl.u + 31 / 10 * η + 5 * ε := by
  have hε0 : 0 ≤ ε := (abs_nonneg _).trans hε
  have hu0 := fl.u_nonneg
  have hε' : |quatNormSq (fl.quat q).inverse - 1| ≤ ε := by rw [quatNormSq_inverse]; exact hε
  have hEM : ∀ a, |fl.val (E a)| ≤ M := fun a => by
    rw [(hE a).2]
    exact (abs_apply_le_len E' a).trans (hE'.le.trans hM1)
  have rc : ∀ a, InRange fl k (c a) := fun a => ⟨hcf a, (hc a).trans hMk⟩
  have rE : ∀ a, InRange fl k (E a) := fun a => ⟨(hE a).1, (hEM a).trans hMk⟩
  set D : Vec := (fl.quat q).inverse.rotate E' with hD
  set tp : V3 R := (fromRotationAndCamcenter q c).cache.poseInv.transformPoint E with htp
  have etp : tp = ((fromRotationAndCamcenter q c).cameraToWorld (.single E)).data 0 := by
    rw [cameraToWorld_data]
    rfl
  have rtp : ∀ a, InRange fl (k + 15) (tp a) := fun a => by
    rw [etp]
    exact c77_camera_to_world r hq rc (.single E) 0 rE (by omega) a
  have ntp : ∀ a, |fl.val (tp a) - (D a + fl.val (c a))| ≤ δ + 14 * ε * M := by
    intro a
    have h1 := rayOrigin_tight hε hc hEM a (rtp a).1
    have hv : fl.vec E = E' := funext fun b => (hE b).2
    rw [hv, ← hD] at h1
    have h2 := (abs_apply_le_len _ a).trans (center_exact hε (by linarith) (fl.vec c))
    have h3 : len (fl.vec c) ≤ 2 * M := len_le_entries hc
    have h4 := mul_le_mul_of_nonneg_left h3 (by linarith : 0 ≤ 7 * ε)
    rw [Pi.sub_apply] at h2
    have e2 : fl.vec c a = fl.val (c a) := rfl
    rw [e2] at h2
    have h5 := h1.trans hδ
    rw [abs_le] at h5 h2 ⊢
    constructor <;> linarith
  have hDl := abs_len_rotate hε' E'
  rw [← hD, hE', _root_.mul_one] at hDl
  have hD4 : 4 * ε * (1 + ε) ≤ 5 * ε := by nlinarith
  have hDlo : 99 / 100 ≤ len D := by
    have := (abs_le.1 hDl).1
    linarith
  have hDhi : len D ≤ 101 / 100 := by
    have := (abs_le.1 hDl).2
    linarith
  have hD0 : D ≠ 0 := by
    intro h0
    have : len (0 : Vec) = 0 := by rw [len_eq, zero_dotProduct, Real.sqrt_zero]
    rw [h0, this] at hDlo
    norm_num at hDlo
  have hg : 0 ≤ δ + 14 * ε * M := (abs_nonneg _).trans (ntp 0)
  have rd : ∀ a, InRange fl (k + 16) (V3.sub tp c a) := fun a => (rtp a).sub r ((rc a).mono (by omega)) (by omega)
  have nd : ∀ a, |fl.val (V3.sub tp c a) - D a| ≤ η := by
    intro a
    obtain ⟨-, -, h1⟩ := fl.sub (rd a).1
    have h1' : |fl.val (V3.sub tp c a) - (fl.val (tp a) - fl.val (c a))| ≤ fl.u * |fl.val (tp a) - fl.val (c a)| := h1
    have h2 := ntp a
    have h3 : |fl.val (tp a) - fl.val (c a)| ≤ 2 + (δ + 14 * ε * M) := by
      have h4 := (abs_apply_le_len D a).trans hDhi
      rw [abs_le] at h2 h4 ⊢
      constructor <;> linarith
    have h5 := mul_le_mul_of_nonneg_left h3 hu0
    have e5 : η = (δ + 14 * ε * M) + fl.u * (2 + (δ + 14 * ε * M)) := by rw [hη]; ring
    have h6 := h1'.trans h5
    rw [e5]
    rw [abs_le] at h6 h2 ⊢
    constructor <;> linarith
  have hωD : 4 * fl.ω ≤ len D ^ 2 := by nlinarith
  have hη20 : 20 * η ≤ len D := by linarith
  have hn := normalize_inRange r m rd hk (by linarith) nd hD0 hη20 hωD
  have hl : (fromRotationAndCamcenter q c).lookdir E = V3.normalize (V3.sub tp c) := rfl
  rw [hl]
  refine ⟨(hn.2 a).1, ?_⟩
  have h6 := normalize_near' m (by linarith) (by linarith) nd hD0 hη20 hωD hn.1.1 a (hn.2 a).1
  have hη0 : 0 ≤ η := (abs_nonneg _).trans (nd 0)
  have h7 : 3 * η / len D ≤ 31 / 10 * η := by
    rw [div_le_iff₀ (by linarith)]
    nlinarith
  have h8 : |V3.normalize D a - D a| ≤ 5 * ε := by
    have e : V3.normalize D a - D a = V3.normalize D a * (1 - len D) := by
      have : D a = len D * V3.normalize D a := by
        rw [normalize_eq, Pi.smul_apply, smul_eq_mul, ← _root_.mul_assoc, mul_inv_cancel₀ (by linarith), _root_.one_mul]
      linear_combination -this
    rw [e, abs_mul]
    have h9 := normalize_coord hD0 a
    have h10 : |1 - len D| ≤ 5 * ε := by rw [abs_sub_comm]; linarith
    nlinarith [abs_nonneg (1 - len D)]
  rw [abs_le] at h6 h8 ⊢
  constructor <;> linarith

theorem len_translation_le {q : Quat ℝ} {ε : ℝ} (h : |quatNormSq q - 1| ≤ ε) (c : Vec) :
    len (fromRotationAndCamcenter q c).translation ≤ (1 + 4 * ε) * len c := by
  rw [translation_eq, len_neg]
  refine (len_add_le _ _).trans ?_
  rw [len_smul]
  have h1 := len_rotate_le h c
  have h2 := mul_le_mul_of_nonneg_right h (len_nonneg c)
  linarith

/-- The hypotheses on a camera and the magnitude of the coordinates. -/
structure PoseRange (r : RoundingRange fl) (q : Quat R) (c : V3 R) (ε M : ℝ) (k : ℕ) : Prop where
  quat : |quatNormSq (fl.quat q) - 1| ≤ ε
  small : ε ≤ 1 / 1000
  inRange : QInRange fl q
  finite : ∀ a, fl.isFinite (c a)
  bound : ∀ a, |fl.val (c a)| ≤ M
  pow : M ≤ 2 ^ k
  top : k + 15 ≤ r.top

namespace PoseRange

variable {r : RoundingRange fl} {q : Quat R} {c : V3 R} {ε M : ℝ} {k n : ℕ}

theorem nonneg (h : PoseRange r q c ε M k) : 0 ≤ ε := (abs_nonneg _).trans h.quat

theorem mono (h : PoseRange r q c ε M k) (hk : k + 3 + 15 ≤ r.top) : PoseRange r q c ε M (k + 3) :=
  ⟨h.quat, h.small, h.inRange, h.finite, h.bound, h.pow.trans (pow_le_pow_right₀ (by norm_num) (by omega)), hk⟩

theorem pow_mono (h : PoseRange r q c ε M k) (hM : 0 ≤ M) : 41 / 10 * M ≤ 2 ^ (k + 3) := by
  have := h.pow
  rw [pow_add]
  linarith

theorem inverse (h : PoseRange r q c ε M k) : |quatNormSq (fl.quat q).inverse - 1| ≤ ε := by
  rw [quatNormSq_inverse]
  exact h.quat

theorem worldToCamera (h : PoseRange r q c ε M k) {B δ : ℝ} (hB : B ≤ 2 ^ k)
    (hδ : ((1 + fl.u) ^ 8 - 1) * (rotTight (1 + ε) fl.ω B + transTight (1 + ε) fl.ω M) ≤ δ)
    (w : Points WorldFrame R n) (i : Fin n) (hx : ∀ a, fl.isFinite (w.data i a) ∧ |fl.val (w.data i a)| ≤ B) (a : Fin 3) :
    fl.isFinite (((fromRotationAndCamcenter q c).worldToCamera w).data i a) ∧
    |fl.val (((fromRotationAndCamcenter q c).worldToCamera w).data i a) -
      ((fl.quat q).rotate (fl.vec (w.data i)) + (fromRotationAndCamcenter (fl.quat q) (fl.vec c)).translation) a| ≤ δ := by
  have hf := c77_world_to_camera r h.inRange (fun a => ⟨h.finite a, (h.bound a).trans h.pow⟩) w i
    (fun a => ⟨(hx a).1, (hx a).2.trans hB⟩) (by have := h.top; omega) a
  have h1 := worldToCamera_tight h.quat h.bound w i (fun a => (hx a).2) a hf.1
  rw [worldToCamera_data (fromRotationAndCamcenter (fl.quat q) (fl.vec c))] at h1
  exact ⟨hf.1, h1.trans hδ⟩

theorem cameraToWorld (h : PoseRange r q c ε M k) {B δ : ℝ} (hB : B ≤ 2 ^ k)
    (hδ : ((1 + fl.u) ^ 15 - 1) * (rotTight (1 + ε) fl.ω B + rotTight (1 + ε) fl.ω (transTight (1 + ε) fl.ω M)) ≤ δ)
    (w : Points CameraFrame R n) (i : Fin n) (hx : ∀ a, fl.isFinite (w.data i a) ∧ |fl.val (w.data i a)| ≤ B) (a : Fin 3) :
    fl.isFinite (((fromRotationAndCamcenter q c).cameraToWorld w).data i a) ∧
    |fl.val (((fromRotationAndCamcenter q c).cameraToWorld w).data i a) -
      ((fl.quat q).inverse.rotate (fl.vec (w.data i)) +
        (fl.quat q).inverse.rotate (-(fromRotationAndCamcenter (fl.quat q) (fl.vec c)).translation)) a| ≤ δ := by
  have hf := c77_camera_to_world r h.inRange (fun a => ⟨h.finite a, (h.bound a).trans h.pow⟩) w i
    (fun a => ⟨(hx a).1, (hx a).2.trans hB⟩) h.top a
  refine ⟨hf.1, ?_⟩
  have hf' := hf.1
  rw [cameraToWorld_data] at hf' ⊢
  exact (rayOrigin_tight h.quat h.bound (fun a => (hx a).2) a hf').trans hδ

/-- Distances between points are kept by both frame changes. -/
theorem dist_of_near {q : Quat ℝ} {ε M δ : ℝ} (hq : |quatNormSq q - 1| ≤ ε) (hε : ε ≤ 1 / 1000) {x x' y y' t : Vec}
    (hx : ∀ a, |x a| ≤ M) (hx' : ∀ a, |x' a| ≤ M) (hy : ∀ a, |y a - (q.rotate x + t) a| ≤ δ)
    (hy' : ∀ a, |y' a - (q.rotate x' + t) a| ≤ δ) :
    |distance y y' - distance x x'| ≤ 4 * δ + 17 * ε * M := by
  have hε0 : 0 ≤ ε := (abs_nonneg _).trans hq
  have hM : 0 ≤ M := (abs_nonneg _).trans (hx 0)
  have h1 := abs_len_rotate hq (x - x')
  have h2 : len (x - x') ≤ 4 * M := by
    have h3 := len_add_le x (-x')
    rw [← sub_eq_add_neg, len_neg] at h3
    linarith [len_le_entries hx, len_le_entries hx']
  have h4 : 4 * ε * (1 + ε) * len (x - x') ≤ 17 * ε * M := by
    have h5 : 4 * ε * (1 + ε) ≤ 4 * ε * (1001 / 1000) := mul_le_mul_of_nonneg_left (by linarith) (by linarith)
    have h6 := mul_le_mul h5 h2 (len_nonneg _) (by positivity)
    nlinarith [mul_nonneg hε0 hM]
  have e1 : len (y - (q.rotate x + t)) ≤ 2 * δ := len_le_entries hy
  have e2 : len (y' - (q.rotate x' + t)) ≤ 2 * δ := len_le_entries hy'
  have e3 : |distance y y' - len (q.rotate (x - x'))| ≤ 4 * δ := by
    have e : y - y' = (y - (q.rotate x + t)) + -(y' - (q.rotate x' + t)) + q.rotate (x - x') := by
      rw [rotate_sub]
      abel
    have e' : q.rotate (x - x') = -(y - (q.rotate x + t)) + (y' - (q.rotate x' + t)) + (y - y') := by
      rw [rotate_sub]
      abel
    have g1 := len_add_le ((y - (q.rotate x + t)) + -(y' - (q.rotate x' + t))) (q.rotate (x - x'))
    have g2 := len_add_le (y - (q.rotate x + t)) (-(y' - (q.rotate x' + t)))
    have g3 := len_add_le (-(y - (q.rotate x + t)) + (y' - (q.rotate x' + t))) (y - y')
    have g4 := len_add_le (-(y - (q.rotate x + t))) (y' - (q.rotate x' + t))
    rw [← e] at g1
    rw [← e'] at g3
    rw [len_neg] at g2 g4
    rw [distance, abs_le]
    constructor <;> linarith
  have h7 := h1.trans h4
  unfold distance at *
  rw [abs_le] at e3 h7 ⊢
  constructor <;> linarith

theorem entries_le {q : Quat ℝ} {ε M δ : ℝ} (hq : |quatNormSq q - 1| ≤ ε) (hε : ε ≤ 1 / 1000) {x y t : Vec}
    (hx : ∀ a, |x a| ≤ M) (ht : len t ≤ (1 + 10 * ε) * (2 * M)) (hδ : δ ≤ M / 100)
    (hy : ∀ a, |y a - (q.rotate x + t) a| ≤ δ) (a : Fin 3) : |y a| ≤ 41 / 10 * M := by
  have hε0 : 0 ≤ ε := (abs_nonneg _).trans hq
  have hM : 0 ≤ M := (abs_nonneg _).trans (hx 0)
  have h1 := len_rotate_le hq x
  have h2 := len_le_entries hx
  have h3 := (abs_apply_le_len _ a).trans (len_add_le (q.rotate x) t)
  have h4 : (1 + 3 * ε) * len x ≤ (1 + 3 * ε) * (2 * M) := mul_le_mul_of_nonneg_left h2 (by linarith)
  have h5 : 13 * ε * (2 * M) ≤ 13 / 1000 * (2 * M) := mul_le_mul_of_nonneg_right (by linarith) (by linarith)
  have h6 := hy a
  rw [abs_le] at h6 h3 ⊢
  constructor <;> linarith

/-- World to camera and back. -/
theorem world_trip (h : PoseRange r q c ε M k) (hk : k + 3 + 15 ≤ r.top) {δ₁ δ₂ : ℝ}
    (h₁ : ((1 + fl.u) ^ 8 - 1) * (rotTight (1 + ε) fl.ω M + transTight (1 + ε) fl.ω M) ≤ δ₁)
    (h₂ : ((1 + fl.u) ^ 15 - 1) * (rotTight (1 + ε) fl.ω (41 / 10 * M) + rotTight (1 + ε) fl.ω (transTight (1 + ε) fl.ω M)) ≤ δ₂)
    (hδ : δ₁ ≤ M / 100)
    (w : Points WorldFrame R n) (i : Fin n) (hx : ∀ a, fl.isFinite (w.data i a) ∧ |fl.val (w.data i a)| ≤ M) (a : Fin 3) :
    let e := fromRotationAndCamcenter q c
    fl.isFinite ((e.cameraToWorld (e.worldToCamera w)).data i a) ∧
    |fl.val ((e.cameraToWorld (e.worldToCamera w)).data i a) - fl.val (w.data i a)| ≤ δ₂ + 201 / 100 * δ₁ + 10 * ε * M := by
  intro e
  have hε := h.small
  have hε0 := h.nonneg
  have hM : 0 ≤ M := (abs_nonneg _).trans (hx 0).2
  have g1 := h.worldToCamera h.pow h₁ w i hx
  have ht := len_translation_le h.quat (fl.vec c)
  have hc : len (fl.vec c) ≤ 2 * M := len_le_entries h.bound
  have hy := fun a => entries_le (q := fl.quat q) (x := fl.vec (w.data i))
    (y := fl.vec ((e.worldToCamera w).data i)) h.quat h.small (fun a => (hx a).2)
    (ht.trans (mul_le_mul (by linarith) hc (len_nonneg _) (by linarith))) hδ (fun a => (g1 a).2) a
  have g2 := (h.mono hk).cameraToWorld (h.pow_mono hM) h₂ (e.worldToCamera w) i (fun a => ⟨(g1 a).1, hy a⟩) a
  refine ⟨g2.1, ?_⟩
  have g3 := (abs_apply_le_len _ a).trans (exact_trip h.quat (by linarith) (fl.vec c) (fl.vec (w.data i)))
  have g4 : len (fl.vec ((e.worldToCamera w).data i) - ((fl.quat q).rotate (fl.vec (w.data i)) +
      (fromRotationAndCamcenter (fl.quat q) (fl.vec c)).translation)) ≤ 2 * δ₁ := len_le_entries (fun a => (g1 a).2)
  have g5 := (abs_apply_le_len _ a).trans (len_rotate_le h.inverse (fl.vec ((e.worldToCamera w).data i) -
    ((fl.quat q).rotate (fl.vec (w.data i)) + (fromRotationAndCamcenter (fl.quat q) (fl.vec c)).translation)))
  rw [rotate_sub] at g5
  have g6 := mul_le_mul_of_nonneg_left g4 (by linarith : 0 ≤ 1 + 3 * ε)
  have hδ0 : 0 ≤ δ₁ := (abs_nonneg _).trans (g1 0).2
  have g7 : 3 * ε * (2 * δ₁) ≤ 3 / 1000 * (2 * δ₁) := mul_le_mul_of_nonneg_right (by linarith) (by linarith)
  have g8 : 5 * ε * len (fl.vec (w.data i)) ≤ 5 * ε * (2 * M) :=
    mul_le_mul_of_nonneg_left (len_le_entries fun a => (hx a).2) (by linarith)
  have g9 := g2.2
  have g10 : |fl.val ((e.cameraToWorld (e.worldToCamera w)).data i a) - fl.val (w.data i a)| ≤
      δ₂ + (1 + 3 * ε) * (2 * δ₁) + 5 * ε * (2 * M) := by
    have e1 : fl.vec (w.data i) a = fl.val (w.data i a) := rfl
    simp only [Pi.sub_apply, Pi.add_apply] at g3 g5 g9
    rw [e1] at g3
    have g3' := g3.trans g8
    have g5' := g5.trans g6
    rw [abs_le] at g3' g5' g9 ⊢
    constructor <;> linarith
  linarith

/-- Camera to world and back. -/
theorem camera_trip (h : PoseRange r q c ε M k) (hk : k + 3 + 15 ≤ r.top) {δ₁ δ₂ : ℝ}
    (h₁ : ((1 + fl.u) ^ 15 - 1) * (rotTight (1 + ε) fl.ω M + rotTight (1 + ε) fl.ω (transTight (1 + ε) fl.ω M)) ≤ δ₁)
    (h₂ : ((1 + fl.u) ^ 8 - 1) * (rotTight (1 + ε) fl.ω (41 / 10 * M) + transTight (1 + ε) fl.ω M) ≤ δ₂)
    (hδ : δ₁ ≤ M / 100)
    (w : Points CameraFrame R n) (i : Fin n) (hx : ∀ a, fl.isFinite (w.data i a) ∧ |fl.val (w.data i a)| ≤ M) (a : Fin 3) :
    let e := fromRotationAndCamcenter q c
    fl.isFinite ((e.worldToCamera (e.cameraToWorld w)).data i a) ∧
    |fl.val ((e.worldToCamera (e.cameraToWorld w)).data i a) - fl.val (w.data i a)| ≤ δ₂ + 201 / 100 * δ₁ + 21 * ε * M := by
  intro e
  have hε := h.small
  have hε0 := h.nonneg
  have hM : 0 ≤ M := (abs_nonneg _).trans (hx 0).2
  set t := (fromRotationAndCamcenter (fl.quat q) (fl.vec c)).translation with htd
  have g1 := h.cameraToWorld h.pow h₁ w i hx
  rw [← htd] at g1
  have ht := len_translation_le h.quat (fl.vec c)
  rw [← htd] at ht
  have hc : len (fl.vec c) ≤ 2 * M := len_le_entries h.bound
  have ht2 : len t ≤ (1 + 4 * ε) * (2 * M) := ht.trans (mul_le_mul_of_nonneg_left hc (by linarith))
  have ht3 : len ((fl.quat q).inverse.rotate (-t)) ≤ (1 + 10 * ε) * (2 * M) := by
    have h3 := len_rotate_le h.inverse (-t)
    rw [len_neg] at h3
    have h4 := mul_le_mul_of_nonneg_left ht2 (by linarith : 0 ≤ 1 + 3 * ε)
    have h5 : (1 + 3 * ε) * (1 + 4 * ε) ≤ 1 + 10 * ε := by nlinarith
    have h6 := mul_le_mul_of_nonneg_right h5 (by linarith : 0 ≤ 2 * M)
    linarith
  have hy := fun a => entries_le (q := (fl.quat q).inverse) (x := fl.vec (w.data i))
    (y := fl.vec ((e.cameraToWorld w).data i)) h.inverse h.small (fun a => (hx a).2) ht3 hδ (fun a => (g1 a).2) a
  have g2 := (h.mono hk).worldToCamera (h.pow_mono hM) h₂ (e.cameraToWorld w) i (fun a => ⟨(g1 a).1, hy a⟩) a
  rw [← htd] at g2
  refine ⟨g2.1, ?_⟩
  have g3 := (abs_apply_le_len _ a).trans (len_defect_le h.inverse (by linarith) (fl.vec (w.data i) + -t))
  rw [inverse_inverse, rotate_add] at g3
  have g4 : len (fl.vec ((e.cameraToWorld w).data i) - ((fl.quat q).inverse.rotate (fl.vec (w.data i)) +
      (fl.quat q).inverse.rotate (-t))) ≤ 2 * δ₁ := len_le_entries (fun a => (g1 a).2)
  have g5 := (abs_apply_le_len _ a).trans (len_rotate_le h.quat (fl.vec ((e.cameraToWorld w).data i) -
    ((fl.quat q).inverse.rotate (fl.vec (w.data i)) + (fl.quat q).inverse.rotate (-t))))
  rw [rotate_sub] at g5
  have g6 := mul_le_mul_of_nonneg_left g4 (by linarith : 0 ≤ 1 + 3 * ε)
  have hδ0 : 0 ≤ δ₁ := (abs_nonneg _).trans (g1 0).2
  have g7 : 3 * ε * (2 * δ₁) ≤ 3 / 1000 * (2 * δ₁) := mul_le_mul_of_nonneg_right (by linarith) (by linarith)
  have g8 : 5 * ε * len (fl.vec (w.data i) + -t) ≤ 5 * ε * (41 / 10 * M) := by
    refine mul_le_mul_of_nonneg_left ?_ (by linarith)
    have h7 := len_add_le (fl.vec (w.data i)) (-t)
    rw [len_neg] at h7
    have h8 : len (fl.vec (w.data i)) ≤ 2 * M := len_le_entries fun a => (hx a).2
    have h9 : 4 * ε * (2 * M) ≤ 4 / 1000 * (2 * M) := mul_le_mul_of_nonneg_right (by linarith) (by linarith)
    linarith
  have g9 := g2.2
  have g10 : |fl.val ((e.worldToCamera (e.cameraToWorld w)).data i a) - fl.val (w.data i a)| ≤
      δ₂ + (1 + 3 * ε) * (2 * δ₁) + 5 * ε * (41 / 10 * M) := by
    have e1 : fl.vec (w.data i) a = fl.val (w.data i a) := rfl
    simp only [Pi.sub_apply, Pi.add_apply, Pi.neg_apply] at g3 g5 g9
    rw [e1] at g3
    have g3' := g3.trans g8
    have g5' := g5.trans g6
    rw [abs_le] at g3' g5' g9 ⊢
    constructor <;> linarith
  have g11 : 0 ≤ ε * M := mul_nonneg hε0 hM
  linarith

end PoseRange

end

theorem rotation_rows {q : Quat ℝ} {ε : ℝ} (h : |quatNormSq q - 1| ≤ ε) (c : Vec) (T : Mat 3 3 ℝ)
    (hT : T = (fromRotationAndCamcenter q c).rotation) (a : Fin 3) :
    |q.inverse.rotate ![1, 0, 0] a - T 0 a| ≤ ε ∧ |q.inverse.rotate ![0, -1, 0] a - -T 1 a| ≤ ε ∧
      |q.inverse.rotate ![0, 0, 1] a - T 2 a| ≤ ε := by
  have h0 : 0 ≤ ε := (abs_nonneg _).trans h
  have e : T = q.toRotationMatrix := hT
  have z : |(0 : ℝ)| ≤ ε := by rw [abs_zero]; exact h0
  have h' : |1 - quatNormSq q| ≤ ε := by rw [abs_sub_comm]; exact h
  rw [e]
  refine ⟨?_, ?_, ?_⟩ <;> rw [rotate_apply]
  · fin_cases a
    · refine le_trans (le_of_eq (congrArg abs ?_)) h'
      simp [Quat.toRotationMatrix, Quat.inverse, quatNormSq]; ring
    all_goals
      refine le_trans (le_of_eq (congrArg abs ?_)) z
      simp [Quat.toRotationMatrix, Quat.inverse]; ring
  · fin_cases a
    on_goal 2 =>
      refine le_trans (le_of_eq (congrArg abs ?_)) h
      simp [Quat.toRotationMatrix, Quat.inverse, quatNormSq]; ring
    all_goals
      refine le_trans (le_of_eq (congrArg abs ?_)) z
      simp [Quat.toRotationMatrix, Quat.inverse]; ring
  · fin_cases a
    on_goal 3 =>
      refine le_trans (le_of_eq (congrArg abs ?_)) h'
      simp [Quat.toRotationMatrix, Quat.inverse, quatNormSq]; ring
    all_goals
      refine le_trans (le_of_eq (congrArg abs ?_)) z
      simp [Quat.toRotationMatrix, Quat.inverse]; ring

/-- The magnitude in a rounding error of `world_to_camera`. -/
theorem tight8_le {n ω B M : ℝ} (hn0 : 0 ≤ n) (hn : n ≤ 1 + 1 / 10 ^ 6) (h1 : ω ≤ 1 / 10 ^ 30) (hM : 1 ≤ M)
    (hB : 0 ≤ B) : rotTight n ω B + transTight n ω M ≤ 425001 / 100000 * B + 30001 / 10000 * M := by
  have b1 : (13 / 4 * n + 1) * B ≤ (13 / 4 * (1 + 1 / 10 ^ 6) + 1) * B :=
    mul_le_mul_of_nonneg_right (by linarith) (by linarith)
  have b2 : ω * (15 * n + 18) ≤ 1 / 10 ^ 30 * 40 := mul_le_mul h1 (by norm_num at hn; linarith) (by linarith) (by norm_num)
  have b3 : (n + 6 * ω) * M ≤ (1 + 1 / 10 ^ 6 + 6 * (1 / 10 ^ 30)) * M :=
    mul_le_mul_of_nonneg_right (by linarith) (by linarith)
  unfold rotTight transTight
  norm_num at b1 b2 b3 h1 ⊢
  linarith

/-- The magnitude in a rounding error of `camera_to_world`. -/
theorem tight15_le {n ω B M : ℝ} (hn0 : 0 ≤ n) (hn : n ≤ 1 + 1 / 10 ^ 6) (h0 : 0 ≤ ω) (h1 : ω ≤ 1 / 10 ^ 30) (hM : 1 ≤ M)
    (hB : 0 ≤ B) : rotTight n ω B + rotTight n ω (transTight n ω M) ≤ 425001 / 100000 * B + 12751 / 1000 * M := by
  have b0 : 0 ≤ transTight n ω M := by unfold transTight; positivity
  have b1 : (13 / 4 * n + 1) * B ≤ (13 / 4 * (1 + 1 / 10 ^ 6) + 1) * B :=
    mul_le_mul_of_nonneg_right (by linarith) (by linarith)
  have b2 : ω * (15 * n + 18) ≤ 1 / 10 ^ 30 * 40 := mul_le_mul h1 (by norm_num at hn; linarith) (by linarith) (by norm_num)
  have b3 : (n + 6 * ω) * M ≤ (1 + 1 / 10 ^ 6 + 6 * (1 / 10 ^ 30)) * M :=
    mul_le_mul_of_nonneg_right (by linarith) (by linarith)
  have b4 : (13 / 4 * n + 1) * transTight n ω M ≤ (13 / 4 * (1 + 1 / 10 ^ 6) + 1) * transTight n ω M :=
    mul_le_mul_of_nonneg_right (by linarith) b0
  have b5 : transTight n ω M ≤ 30001 / 10000 * M := by
    unfold transTight
    norm_num at b3 h1 ⊢
    linarith
  unfold rotTight
  norm_num at b1 b2 b4 b5 ⊢
  linarith

/-! ### `f64` -/

theorem err8_b64 {ω M B : ℝ} (h0 : 0 ≤ ω) (h1 : ω ≤ 1 / 10 ^ 30) (hM : 1 ≤ M) (hB : 1 ≤ B) :
    (((1 : ℝ) + 1 / 2 ^ 53) ^ 8 - 1) * (rotTight (1 + 1 / 10 ^ 15) ω B + transTight (1 + 1 / 10 ^ 15) ω M) ≤
      889 / 10 ^ 18 * (425001 / 100000 * B + 30001 / 10000 * M) :=
  mul_le_mul (by norm_num) (tight8_le (by norm_num) (by norm_num) h1 hM (by linarith))
    (by unfold rotTight transTight; positivity) (by norm_num)

theorem err15_b64 {ω M B : ℝ} (h0 : 0 ≤ ω) (h1 : ω ≤ 1 / 10 ^ 30) (hM : 1 ≤ M) (hB : 1 ≤ B) :
    (((1 : ℝ) + 1 / 2 ^ 53) ^ 15 - 1) * (rotTight (1 + 1 / 10 ^ 15) ω B +
      rotTight (1 + 1 / 10 ^ 15) ω (transTight (1 + 1 / 10 ^ 15) ω M)) ≤
      167 / 10 ^ 17 * (425001 / 100000 * B + 12751 / 1000 * M) :=
  mul_le_mul (by norm_num) (tight15_le (by norm_num) (by norm_num) h0 h1 hM (by linarith))
    (by unfold rotTight transTight; positivity) (by norm_num)

theorem ω_small_b64 (lib : Libm Format.b64) : (RustFloat.rounding .b64 lib).ω ≤ 1 / 10 ^ 30 := Format.ω_b64.trans (by norm_num)

section
variable {lib : Libm Format.b64} {q : Quat (F64 lib)} {c : V3 (F64 lib)} {M : ℝ} {n : ℕ}

theorem poseRange_b64 (hq : NearUnit lib (1 / 10 ^ 15) q) (hc : ∀ a, Flt.Bounded (f := .b64) M (c a)) {k : ℕ} (hM : M ≤ 2 ^ k)
    (hk : k + 15 ≤ 1023) : PoseRange (RustFloat.range .b64 lib) q c (1 / 10 ^ 15) M k :=
  ⟨hq.quatNormSq, by norm_num, hq.inRange (by norm_num), fun a => (hc a).1, fun a => (hc a).2, hM, hk⟩

theorem c96_f64_lookdir (hq : NearUnit lib (1 / 10 ^ 15) q) (hM1 : 1 ≤ M) (hM : M ≤ 10 ^ 12)
    (hc : ∀ a, Flt.Bounded (f := .b64) M (c a)) {E : V3 (F64 lib)} {E' : Vec}
    (hE : ∀ a, Flt.isFinite (f := .b64) (E a) ∧ Flt.val (f := .b64) (E a) = E' a) (hE' : len E' = 1) (a : Fin 3) :
    Flt.isFinite (f := .b64) ((fromRotationAndCamcenter q c).lookdir E a) ∧
      |Flt.val (f := .b64) ((fromRotationAndCamcenter q c).lookdir E a) -
        ((RustFloat.rounding .b64 lib).quat q).inverse.rotate E' a| ≤ (14 / 10 ^ 14) * M := by
  have eu : (RustFloat.rounding .b64 lib).u = 1 / 2 ^ 53 := Format.u_b64
  have hω := ω_small_b64 lib
  have hω0 := (RustFloat.rounding .b64 lib).ω_nonneg
  have hδ := err15_b64 hω0 hω hM1 hM1
  rw [← eu] at hδ
  have hη : (1 + (RustFloat.rounding .b64 lib).u) * (167 / 10 ^ 17 * (425001 / 100000 * M + 12751 / 1000 * M) + 14 * (1 / 10 ^ 15) * M) + 2 * (RustFloat.rounding .b64 lib).u ≤
      (427 / 10 ^ 16) * M := by
    rw [eu]
    norm_num
    linarith
  have h := lookdir_near (RustFloat.range .b64 lib) (RustFloat.roundingMore lib Format.cutoff_b64) (by rw [eu]; norm_num)
    (hω.trans (by norm_num)) hq.quatNormSq (by norm_num) (hq.inRange (by norm_num)) (k := 40) hM1 (hM.trans (by norm_num))
    (fun a => (hc a).1) (fun a => (hc a).2) (by show _ ≤ 1023; norm_num) hδ rfl (by linarith) hE hE' a
  refine ⟨h.1, h.2.trans ?_⟩
  have e11 : 11 * (RustFloat.rounding .b64 lib).u ≤ (2 / 10 ^ 15) * M := by
    rw [eu]
    norm_num
    linarith
  linarith

/-- **C96** for `f64`: the axes of a camera are finite and close to the rows of the rotation matrix. -/
theorem c96_f64_axes (hq : NearUnit lib (1 / 10 ^ 15) q) (hM1 : 1 ≤ M) (hM : M ≤ 10 ^ 12)
    (hc : ∀ a, Flt.Bounded (f := .b64) M (c a)) (T : Mat 3 3 ℝ)
    (hT : T = (fromRotationAndCamcenter ((RustFloat.rounding .b64 lib).quat q)
      ((RustFloat.rounding .b64 lib).vec c)).rotation) (a : Fin 3) :
    let e := fromRotationAndCamcenter q c
    (Flt.isFinite (f := .b64) (e.right a) ∧ |Flt.val (f := .b64) (e.right a) - T 0 a| ≤ (15 / 10 ^ 14) * M) ∧
    (Flt.isFinite (f := .b64) (e.up a) ∧ |Flt.val (f := .b64) (e.up a) - -T 1 a| ≤ (15 / 10 ^ 14) * M) ∧
    (Flt.isFinite (f := .b64) (e.forward a) ∧ |Flt.val (f := .b64) (e.forward a) - T 2 a| ≤ (15 / 10 ^ 14) * M) := by
  intro e
  have hn := hq.quatNormSq
  have h0 := (RustFloat.rounding .b64 lib).zero
  have h1 := (RustFloat.rounding .b64 lib).one
  have h1' := Is.neg (f := .b64) (lib := lib) (x := 1) h1
  have r := c96_f64_lookdir hq hM1 hM hc (E := ![1, 0, 0]) (E' := ![1, 0, 0])
    (by intro a; fin_cases a <;> [exact h1; exact h0; exact h0]) len_ex a
  have u := c96_f64_lookdir hq hM1 hM hc (E := ![0, -1, 0]) (E' := ![0, -1, 0])
    (by intro a; fin_cases a <;> [exact h0; exact h1'; exact h0]) len_ey a
  have f := c96_f64_lookdir hq hM1 hM hc (E := ![0, 0, 1]) (E' := ![0, 0, 1])
    (by intro a; fin_cases a <;> [exact h0; exact h0; exact h1]) len_ez a
  obtain ⟨t0, t1, t2⟩ := rotation_rows hn ((RustFloat.rounding .b64 lib).vec c) T hT a
  refine ⟨⟨r.1, ?_⟩, ⟨u.1, ?_⟩, ⟨f.1, ?_⟩⟩
  · have g : |Flt.val (f := .b64) (e.right a) - ((RustFloat.rounding .b64 lib).quat q).inverse.rotate ![1, 0, 0] a| ≤ _ := r.2
    rw [abs_le] at g t0 ⊢
    constructor <;> linarith
  · have g : |Flt.val (f := .b64) (e.up a) - ((RustFloat.rounding .b64 lib).quat q).inverse.rotate ![0, -1, 0] a| ≤ _ := u.2
    rw [abs_le] at g t1 ⊢
    constructor <;> linarith
  · have g : |Flt.val (f := .b64) (e.forward a) - ((RustFloat.rounding .b64 lib).quat q).inverse.rotate ![0, 0, 1] a| ≤ _ := f.2
    rw [abs_le] at g t2 ⊢
    constructor <;> linarith

/-- **C96** for `f64`: distances between points are the same in world and camera coordinates, up to rounding. -/
theorem c96_f64_distances (hq : NearUnit lib (1 / 10 ^ 15) q) (hM1 : 1 ≤ M) (hM : M ≤ 2 ^ 900)
    (hc : ∀ a, Flt.Bounded (f := .b64) M (c a)) (w : Points WorldFrame (F64 lib) n) (i j : Fin n)
    (hi : ∀ a, Flt.Bounded (f := .b64) M (w.data i a)) (hj : ∀ a, Flt.Bounded (f := .b64) M (w.data j a)) :
    let y := ((fromRotationAndCamcenter q c).worldToCamera w).data
    (∀ a, Flt.isFinite (f := .b64) (y i a) ∧ Flt.isFinite (f := .b64) (y j a)) ∧
    |distance (fun a => Flt.val (f := .b64) (y i a)) (fun a => Flt.val (f := .b64) (y j a)) -
      distance (fun a => Flt.val (f := .b64) (w.data i a)) (fun a => Flt.val (f := .b64) (w.data j a))| ≤ (44 / 10 ^ 15) * M := by
  intro y
  have eu : (RustFloat.rounding .b64 lib).u = 1 / 2 ^ 53 := Format.u_b64
  have hδ := err8_b64 (RustFloat.rounding .b64 lib).ω_nonneg (ω_small_b64 lib) hM1 hM1
  rw [← eu] at hδ
  have hp := poseRange_b64 hq hc hM (by norm_num)
  have gi := hp.worldToCamera hp.pow hδ w i hi
  have gj := hp.worldToCamera hp.pow hδ w j hj
  refine ⟨fun a => ⟨(gi a).1, (gj a).1⟩, ?_⟩
  have h := PoseRange.dist_of_near hp.quat hp.small (x := fun a => Flt.val (f := .b64) (w.data i a))
    (x' := fun a => Flt.val (f := .b64) (w.data j a)) (y := fun a => Flt.val (f := .b64) (y i a))
    (y' := fun a => Flt.val (f := .b64) (y j a)) (fun a => (hi a).2) (fun a => (hj a).2)
    (fun a => (gi a).2) (fun a => (gj a).2)
  refine h.trans ?_
  linarith

/-- **C96** for `f64`: from world to camera coordinates and back. -/
theorem c96_f64_world_trip (hq : NearUnit lib (1 / 10 ^ 15) q) (hM1 : 1 ≤ M) (hM : M ≤ 2 ^ 900)
    (hc : ∀ a, Flt.Bounded (f := .b64) M (c a)) (w : Points WorldFrame (F64 lib) n) (i : Fin n)
    (hi : ∀ a, Flt.Bounded (f := .b64) M (w.data i a)) (a : Fin 3) :
    let e := fromRotationAndCamcenter q c
    Flt.isFinite (f := .b64) ((e.cameraToWorld (e.worldToCamera w)).data i a) ∧
    |Flt.val (f := .b64) ((e.cameraToWorld (e.worldToCamera w)).data i a) - Flt.val (f := .b64) (w.data i a)| ≤
      (75 / 10 ^ 15) * M := by
  intro e
  have eu : (RustFloat.rounding .b64 lib).u = 1 / 2 ^ 53 := Format.u_b64
  have hδ := err8_b64 (RustFloat.rounding .b64 lib).ω_nonneg (ω_small_b64 lib) hM1 hM1
  have hδ' := err15_b64 (RustFloat.rounding .b64 lib).ω_nonneg (ω_small_b64 lib) hM1 (B := 41 / 10 * M) (by linarith)
  rw [← eu] at hδ hδ'
  have h := (poseRange_b64 hq hc hM (by norm_num)).world_trip (by show _ ≤ 1023; norm_num) hδ hδ' (by linarith) w i hi a
  exact ⟨h.1, h.2.trans (by linarith)⟩

/-- **C96** for `f64`: from camera to world coordinates and back. -/
theorem c96_f64_camera_trip (hq : NearUnit lib (1 / 10 ^ 15) q) (hM1 : 1 ≤ M) (hM : M ≤ 2 ^ 900)
    (hc : ∀ a, Flt.Bounded (f := .b64) M (c a)) (w : Points CameraFrame (F64 lib) n) (i : Fin n)
    (hi : ∀ a, Flt.Bounded (f := .b64) M (w.data i a)) (a : Fin 3) :
    let e := fromRotationAndCamcenter q c
    Flt.isFinite (f := .b64) ((e.worldToCamera (e.cameraToWorld w)).data i a) ∧
    |Flt.val (f := .b64) ((e.worldToCamera (e.cameraToWorld w)).data i a) - Flt.val (f := .b64) (w.data i a)| ≤
      (1 / 10 ^ 13) * M := by
  intro e
  have eu : (RustFloat.rounding .b64 lib).u = 1 / 2 ^ 53 := Format.u_b64
  have hδ := err15_b64 (RustFloat.rounding .b64 lib).ω_nonneg (ω_small_b64 lib) hM1 hM1
  have hδ' := err8_b64 (RustFloat.rounding .b64 lib).ω_nonneg (ω_small_b64 lib) hM1 (B := 41 / 10 * M) (by linarith)
  rw [← eu] at hδ hδ'
  have h := (poseRange_b64 hq hc hM (by norm_num)).camera_trip (by show _ ≤ 1023; norm_num) hδ hδ' (by linarith) w i hi a
  exact ⟨h.1, h.2.trans (by linarith)⟩

end

/-! ### `f32` -/

theorem err8_b32 {ω M B : ℝ} (h0 : 0 ≤ ω) (h1 : ω ≤ 1 / 10 ^ 30) (hM : 1 ≤ M) (hB : 1 ≤ B) :
    (((1 : ℝ) + 1 / 2 ^ 24) ^ 8 - 1) * (rotTight (1 + 1 / 10 ^ 6) ω B + transTight (1 + 1 / 10 ^ 6) ω M) ≤
      477 / 10 ^ 9 * (425001 / 100000 * B + 30001 / 10000 * M) :=
  mul_le_mul (by norm_num) (tight8_le (by norm_num) (by norm_num) h1 hM (by linarith))
    (by unfold rotTight transTight; positivity) (by norm_num)

theorem err15_b32 {ω M B : ℝ} (h0 : 0 ≤ ω) (h1 : ω ≤ 1 / 10 ^ 30) (hM : 1 ≤ M) (hB : 1 ≤ B) :
    (((1 : ℝ) + 1 / 2 ^ 24) ^ 15 - 1) * (rotTight (1 + 1 / 10 ^ 6) ω B +
      rotTight (1 + 1 / 10 ^ 6) ω (transTight (1 + 1 / 10 ^ 6) ω M)) ≤
      895 / 10 ^ 9 * (425001 / 100000 * B + 12751 / 1000 * M) :=
  mul_le_mul (by norm_num) (tight15_le (by norm_num) (by norm_num) h0 h1 hM (by linarith))
    (by unfold rotTight transTight; positivity) (by norm_num)

theorem ω_small_b32 (lib : Libm Format.b32) : (RustFloat.rounding .b32 lib).ω ≤ 1 / 10 ^ 30 := Format.ω_b32.le.trans (by norm_num)

section
variable {lib : Libm Format.b32} {q : Quat (F32 lib)} {c : V3 (F32 lib)} {M : ℝ} {n : ℕ}

theorem poseRange_b32 (hq : NearUnit lib (1 / 10 ^ 6) q) (hc : ∀ a, Flt.Bounded (f := .b32) M (c a)) {k : ℕ} (hM : M ≤ 2 ^ k)
    (hk : k + 15 ≤ 127) : PoseRange (RustFloat.range .b32 lib) q c (1 / 10 ^ 6) M k :=
  ⟨hq.quatNormSq, by norm_num, hq.inRange (by norm_num), fun a => (hc a).1, fun a => (hc a).2, hM, hk⟩

theorem c96_f32_lookdir (hq : NearUnit lib (1 / 10 ^ 6) q) (hM1 : 1 ≤ M) (hM : M ≤ 1500)
    (hc : ∀ a, Flt.Bounded (f := .b32) M (c a)) {E : V3 (F32 lib)} {E' : Vec}
    (hE : ∀ a, Flt.isFinite (f := .b32) (E a) ∧ Flt.val (f := .b32) (E a) = E' a) (hE' : len E' = 1) (a : Fin 3) :
    Flt.isFinite (f := .b32) ((fromRotationAndCamcenter q c).lookdir E a) ∧
      |Flt.val (f := .b32) ((fromRotationAndCamcenter q c).lookdir E a) -
        ((RustFloat.rounding .b32 lib).quat q).inverse.rotate E' a| ≤ (98 / 10 ^ 6) * M := by
  have eu : (RustFloat.rounding .b32 lib).u = 1 / 2 ^ 24 := Format.u_b32
  have hω := ω_small_b32 lib
  have hω0 := (RustFloat.rounding .b32 lib).ω_nonneg
  have hδ := err15_b32 hω0 hω hM1 hM1
  rw [← eu] at hδ
  have hη : (1 + (RustFloat.rounding .b32 lib).u) * (895 / 10 ^ 9 * (425001 / 100000 * M + 12751 / 1000 * M) + 14 * (1 / 10 ^ 6) * M) + 2 * (RustFloat.rounding .b32 lib).u ≤
      (296 / 10 ^ 7) * M := by
    rw [eu]
    norm_num
    linarith
  have h := lookdir_near (RustFloat.range .b32 lib) (RustFloat.roundingMore lib Format.cutoff_b32) (by rw [eu]; norm_num)
    (hω.trans (by norm_num)) hq.quatNormSq (by norm_num) (hq.inRange (by norm_num)) (k := 11) hM1 (hM.trans (by norm_num))
    (fun a => (hc a).1) (fun a => (hc a).2) (by show _ ≤ 127; norm_num) hδ rfl (by linarith) hE hE' a
  refine ⟨h.1, h.2.trans ?_⟩
  have e11 : 11 * (RustFloat.rounding .b32 lib).u ≤ (1 / 10 ^ 6) * M := by
    rw [eu]
    norm_num
    linarith
  linarith

/-- **C96** for `f32`: the axes of a camera are finite and close to the rows of the rotation matrix. -/
theorem c96_f32_axes (hq : NearUnit lib (1 / 10 ^ 6) q) (hM1 : 1 ≤ M) (hM : M ≤ 1500)
    (hc : ∀ a, Flt.Bounded (f := .b32) M (c a)) (T : Mat 3 3 ℝ)
    (hT : T = (fromRotationAndCamcenter ((RustFloat.rounding .b32 lib).quat q)
      ((RustFloat.rounding .b32 lib).vec c)).rotation) (a : Fin 3) :
    let e := fromRotationAndCamcenter q c
    (Flt.isFinite (f := .b32) (e.right a) ∧ |Flt.val (f := .b32) (e.right a) - T 0 a| ≤ (1 / 10 ^ 4) * M) ∧
    (Flt.isFinite (f := .b32) (e.up a) ∧ |Flt.val (f := .b32) (e.up a) - -T 1 a| ≤ (1 / 10 ^ 4) * M) ∧
    (Flt.isFinite (f := .b32) (e.forward a) ∧ |Flt.val (f := .b32) (e.forward a) - T 2 a| ≤ (1 / 10 ^ 4) * M) := by
  intro e
  have hn := hq.quatNormSq
  have h0 := (RustFloat.rounding .b32 lib).zero
  have h1 := (RustFloat.rounding .b32 lib).one
  have h1' := Is.neg (f := .b32) (lib := lib) (x := 1) h1
  have r := c96_f32_lookdir hq hM1 hM hc (E := ![1, 0, 0]) (E' := ![1, 0, 0])
    (by intro a; fin_cases a <;> [exact h1; exact h0; exact h0]) len_ex a
  have u := c96_f32_lookdir hq hM1 hM hc (E := ![0, -1, 0]) (E' := ![0, -1, 0])
    (by intro a; fin_cases a <;> [exact h0; exact h1'; exact h0]) len_ey a
  have f := c96_f32_lookdir hq hM1 hM hc (E := ![0, 0, 1]) (E' := ![0, 0, 1])
    (by intro a; fin_cases a <;> [exact h0; exact h0; exact h1]) len_ez a
  obtain ⟨t0, t1, t2⟩ := rotation_rows hn ((RustFloat.rounding .b32 lib).vec c) T hT a
  refine ⟨⟨r.1, ?_⟩, ⟨u.1, ?_⟩, ⟨f.1, ?_⟩⟩
  · have g : |Flt.val (f := .b32) (e.right a) - ((RustFloat.rounding .b32 lib).quat q).inverse.rotate ![1, 0, 0] a| ≤ _ := r.2
    rw [abs_le] at g t0 ⊢
    constructor <;> linarith
  · have g : |Flt.val (f := .b32) (e.up a) - ((RustFloat.rounding .b32 lib).quat q).inverse.rotate ![0, -1, 0] a| ≤ _ := u.2
    rw [abs_le] at g t1 ⊢
    constructor <;> linarith
  · have g : |Flt.val (f := .b32) (e.forward a) - ((RustFloat.rounding .b32 lib).quat q).inverse.rotate ![0, 0, 1] a| ≤ _ := f.2
    rw [abs_le] at g t2 ⊢
    constructor <;> linarith

/-- **C96** for `f32`: distances between points are the same in world and camera coordinates, up to rounding. -/
theorem c96_f32_distances (hq : NearUnit lib (1 / 10 ^ 6) q) (hM1 : 1 ≤ M) (hM : M ≤ 2 ^ 80)
    (hc : ∀ a, Flt.Bounded (f := .b32) M (c a)) (w : Points WorldFrame (F32 lib) n) (i j : Fin n)
    (hi : ∀ a, Flt.Bounded (f := .b32) M (w.data i a)) (hj : ∀ a, Flt.Bounded (f := .b32) M (w.data j a)) :
    let y := ((fromRotationAndCamcenter q c).worldToCamera w).data
    (∀ a, Flt.isFinite (f := .b32) (y i a) ∧ Flt.isFinite (f := .b32) (y j a)) ∧
    |distance (fun a => Flt.val (f := .b32) (y i a)) (fun a => Flt.val (f := .b32) (y j a)) -
      distance (fun a => Flt.val (f := .b32) (w.data i a)) (fun a => Flt.val (f := .b32) (w.data j a))| ≤ (32 / 10 ^ 6) * M := by
  intro y
  have eu : (RustFloat.rounding .b32 lib).u = 1 / 2 ^ 24 := Format.u_b32
  have hδ := err8_b32 (RustFloat.rounding .b32 lib).ω_nonneg (ω_small_b32 lib) hM1 hM1
  rw [← eu] at hδ
  have hp := poseRange_b32 hq hc hM (by norm_num)
  have gi := hp.worldToCamera hp.pow hδ w i hi
  have gj := hp.worldToCamera hp.pow hδ w j hj
  refine ⟨fun a => ⟨(gi a).1, (gj a).1⟩, ?_⟩
  have h := PoseRange.dist_of_near hp.quat hp.small (x := fun a => Flt.val (f := .b32) (w.data i a))
    (x' := fun a => Flt.val (f := .b32) (w.data j a)) (y := fun a => Flt.val (f := .b32) (y i a))
    (y' := fun a => Flt.val (f := .b32) (y j a)) (fun a => (hi a).2) (fun a => (hj a).2)
    (fun a => (gi a).2) (fun a => (gj a).2)
  refine h.trans ?_
  linarith

/-- **C96** for `f32`: from world to camera coordinates and back. -/
theorem c96_f32_world_trip (hq : NearUnit lib (1 / 10 ^ 6) q) (hM1 : 1 ≤ M) (hM : M ≤ 2 ^ 80)
    (hc : ∀ a, Flt.Bounded (f := .b32) M (c a)) (w : Points WorldFrame (F32 lib) n) (i : Fin n)
    (hi : ∀ a, Flt.Bounded (f := .b32) M (w.data i a)) (a : Fin 3) :
    let e := fromRotationAndCamcenter q c
    Flt.isFinite (f := .b32) ((e.cameraToWorld (e.worldToCamera w)).data i a) ∧
    |Flt.val (f := .b32) ((e.cameraToWorld (e.worldToCamera w)).data i a) - Flt.val (f := .b32) (w.data i a)| ≤
      (45 / 10 ^ 6) * M := by
  intro e
  have eu : (RustFloat.rounding .b32 lib).u = 1 / 2 ^ 24 := Format.u_b32
  have hδ := err8_b32 (RustFloat.rounding .b32 lib).ω_nonneg (ω_small_b32 lib) hM1 hM1
  have hδ' := err15_b32 (RustFloat.rounding .b32 lib).ω_nonneg (ω_small_b32 lib) hM1 (B := 41 / 10 * M) (by linarith)
  rw [← eu] at hδ hδ'
  have h := (poseRange_b32 hq hc hM (by norm_num)).world_trip (by show _ ≤ 127; norm_num) hδ hδ' (by linarith) w i hi a
  exact ⟨h.1, h.2.trans (by linarith)⟩

/-- **C96** for `f32`: from camera to world coordinates and back. -/
theorem c96_f32_camera_trip (hq : NearUnit lib (1 / 10 ^ 6) q) (hM1 : 1 ≤ M) (hM : M ≤ 2 ^ 80)
    (hc : ∀ a, Flt.Bounded (f := .b32) M (c a)) (w : Points CameraFrame (F32 lib) n) (i : Fin n)
    (hi : ∀ a, Flt.Bounded (f := .b32) M (w.data i a)) (a : Fin 3) :
    let e := fromRotationAndCamcenter q c
    Flt.isFinite (f := .b32) ((e.worldToCamera (e.cameraToWorld w)).data i a) ∧
    |Flt.val (f := .b32) ((e.worldToCamera (e.cameraToWorld w)).data i a) - Flt.val (f := .b32) (w.data i a)| ≤
      (62 / 10 ^ 6) * M := by
  intro e
  have eu : (RustFloat.rounding .b32 lib).u = 1 / 2 ^ 24 := Format.u_b32
  have hδ := err15_b32 (RustFloat.rounding .b32 lib).ω_nonneg (ω_small_b32 lib) hM1 hM1
  have hδ' := err8_b32 (RustFloat.rounding .b32 lib).ω_nonneg (ω_small_b32 lib) hM1 (B := 41 / 10 * M) (by linarith)
  rw [← eu] at hδ hδ'
  have h := (poseRange_b32 hq hc hM (by norm_num)).camera_trip (by show _ ≤ 127; norm_num) hδ hδ' (by linarith) w i hi a
  exact ⟨h.1, h.2.trans (by linarith)⟩

end

/-! ### Cameras far away -/

section
variable {f : Format} {lib : Libm f}

/-- Adding at most one to a number above `2^(p+1)` does not change it. -/
theorem Format.rnd_absorb {x y : ℝ} (hx : f.Rep x) (h : 2 ^ (f.p + 1 : ℤ) < x) (hy : |y - x| ≤ 1) : f.rnd y = x := by
  have h4 : ((f.p : ℤ) + 1) + 1 - f.p = 2 := by ring
  obtain ⟨n, hn⟩ := hx.multiple_of_le h.le
  rw [h4] at hn
  have hP : f.Rep (2 ^ (f.p + 1 : ℤ)) := Format.rep_pow (by
    have := f.three_le_p
    have := f.emin_le
    omega)
  have hp2 : (2 : ℝ) ^ (f.p + 1 : ℤ) = ((2 ^ (f.p - 1) : ℤ) : ℝ) * 2 ^ (2 : ℤ) := by
    have := f.three_le_p
    push_cast
    rw [← zpow_natCast, ← zpow_add₀ (by norm_num)]
    congr 1
    omega
  have hy0 := abs_le.1 hy
  have h5 : (2 : ℝ) ^ (f.p + 1 : ℤ) + 4 ≤ x := by
    rw [hp2, hn] at h
    have h6 : ((2 ^ (f.p - 1) : ℤ) : ℝ) < n := lt_of_mul_lt_mul_right h (by norm_num)
    have h7 : (2 ^ (f.p - 1) : ℤ) + 1 ≤ n := by exact_mod_cast h6
    have h8 : ((2 ^ (f.p - 1) : ℤ) : ℝ) + 1 ≤ n := by exact_mod_cast h7
    rw [hp2, hn]
    norm_num at h8 ⊢
    linarith
  have hpos : (0 : ℝ) < 2 ^ (f.p + 1 : ℤ) := by positivity
  have hyn : 0 ≤ y := by linarith
  have h9 := Format.le_rnd hyn hP (by linarith)
  have h10 : |f.rnd y - y| ≤ 1 := (Format.rnd_nearest hyn hx).trans (by rw [abs_sub_comm]; exact hy)
  obtain ⟨m, hm⟩ := (Format.rnd_rep (f := f) hyn).multiple_of_le h9
  rw [h4] at hm
  have h11 : |f.rnd y - x| ≤ 2 := by
    rw [abs_le] at h10 ⊢
    constructor <;> linarith
  rw [hm, hn, ← sub_mul, abs_mul] at h11
  norm_num at h11
  have h12 : |m - n| < 1 := by
    have : |((m - n : ℤ) : ℝ)| < 1 := by push_cast; linarith
    exact_mod_cast this
  rw [hm, hn, sub_eq_zero.1 (Int.abs_lt_one_iff.1 h12)]

theorem Is.absorb {x y : RustFloat f lib} {r s : ℝ} (h : Is x r) (k : Is y s) (hr : |r| ≤ 1)
    (hs : 2 ^ (f.p + 1 : ℤ) < |s|) : Is (x + y) s := by
  have hm := k.mag
  have h1 : (1 : ℝ) ≤ 2 ^ (f.p + 1 : ℤ) := one_le_zpow₀ (by norm_num) (by omega)
  have e : f.rnd |r + s| = |s| := Format.rnd_absorb hm.rep hs (by
    refine (abs_abs_sub_abs_le _ _).trans ?_
    rw [add_sub_cancel_right]
    exact hr)
  show Flt.isFinite (Flt.add x y) ∧ Flt.val (Flt.add x y) = s
  rw [Flt.add_eq h.1 k.1, h.2, k.2]
  have h2 : (Flt.ofReal f (x.neg? && y.neg?) (r + s)).isFinite := Flt.ofReal_finite.2 (by rw [e]; exact hm.1)
  refine ⟨h2, ?_⟩
  rw [Flt.ofReal_val h2, e]
  have h3 := abs_le.1 hr
  rcases lt_or_ge s 0 with h0 | h0
  · rw [abs_of_neg h0] at hs ⊢
    rw [if_pos (by linarith), neg_neg]
  · rw [abs_of_nonneg h0] at hs ⊢
    rw [if_neg (by linarith)]

theorem lookdir_far {q : Quat (RustFloat f lib)} (hq : q.IsIdentity) {c : V3 (RustFloat f lib)}
    (hc : ∀ a, Flt.isFinite (f := f) (c a)) {E : V3 (RustFloat f lib)} {E' : Vec} (hE : ∀ a, Is (E a) (E' a))
    (h : ∀ a, E' a = 0 ∨ |E' a| ≤ 1 ∧ 2 ^ (f.p + 1 : ℤ) < |Flt.val (f := f) (c a)|) (a : Fin 3) :
    (fromRotationAndCamcenter q c).lookdir E a = (Flt.nan : Flt f) := by
  have hk : ∀ b, Is (c b) (Flt.val (f := f) (c b)) := fun b => finite_is (hc b)
  have hrot := identity_rotate (identity_inverse hq) hE
  have htr := identity_poseTranslation hq hk
  have htp : ∀ b, Is ((fromRotationAndCamcenter q c).cache.poseInv.transformPoint E b) (Flt.val (f := f) (c b)) := by
    intro b
    rcases h b with h0 | h0
    · have := hrot b
      rw [h0] at this
      exact this.zero_add (htr b)
    · exact (hrot b).absorb (htr b) h0.1 h0.2
  have hd : ∀ b, Is (V3.sub ((fromRotationAndCamcenter q c).cache.poseInv.transformPoint E) c b) 0 := by
    intro b
    have := Is.add (htp b) (hk b).neg (by rw [add_neg_cancel, abs_zero]; exact Flt.mag_zero)
    rw [add_neg_cancel] at this
    exact this
  have hz : ∀ b, (RustFloat.ieee f lib).isZero
      (V3.sub ((fromRotationAndCamcenter q c).cache.poseInv.transformPoint E) c b) := hd
  have hn : ∀ b, (RustFloat.ieee f lib).isNan
      (V3.normalize (V3.sub ((fromRotationAndCamcenter q c).cache.poseInv.transformPoint E) c) b) := by
    intro b
    refine (RustFloat.ieee f lib).zero_div_zero (hz b) ((RustFloat.ieee f lib).sqrt_zero ?_)
    have h1 : ∀ b, (RustFloat.ieee f lib).isZero (V3.sub ((fromRotationAndCamcenter q c).cache.poseInv.transformPoint E) c b *
        V3.sub ((fromRotationAndCamcenter q c).cache.poseInv.transformPoint E) c b) := fun b =>
      (RustFloat.ieee f lib).zero_mul (hz b) ((RustFloat.ieee f lib).zero_finite (hz b))
    exact (RustFloat.ieee f lib).zero_add ((RustFloat.ieee f lib).zero_add (h1 0) (h1 1)) (h1 2)
  exact hn a

/-- **C96**: the axes of a camera that is not rotated and too far away are NaN.  Above `2^(p+1)`, that is `2^54` for
`f64` and `2^25` for `f32`, the point one unit in front of the camera is rounded to the camera centre. -/
theorem c96_far_away (q : Quat (RustFloat f lib)) (hq : q.IsIdentity) (c : V3 (RustFloat f lib))
    (hc : ∀ a, Flt.isFinite (f := f) (c a)) (a : Fin 3) :
    let e := fromRotationAndCamcenter q c
    (2 ^ (f.p + 1 : ℤ) < |Flt.val (f := f) (c 0)| → e.right a = (Flt.nan : Flt f)) ∧
    (2 ^ (f.p + 1 : ℤ) < |Flt.val (f := f) (c 1)| → e.up a = (Flt.nan : Flt f)) ∧
    (2 ^ (f.p + 1 : ℤ) < |Flt.val (f := f) (c 2)| → e.forward a = (Flt.nan : Flt f)) := by
  refine ⟨fun h => ?_, fun h => ?_, fun h => ?_⟩
  · refine lookdir_far hq hc (E := ![1, 0, 0]) (E' := ![1, 0, 0]) ?_ ?_ a
    · intro b; fin_cases b <;> [exact is_one; exact is_zero; exact is_zero]
    · intro b; fin_cases b <;> [exact .inr ⟨by simp, h⟩; exact .inl rfl; exact .inl rfl]
  · refine lookdir_far hq hc (E := ![0, -1, 0]) (E' := ![0, -1, 0]) ?_ ?_ a
    · intro b; fin_cases b <;> [exact is_zero; exact is_one.neg; exact is_zero]
    · intro b; fin_cases b <;> [exact .inl rfl; exact .inr ⟨by simp, h⟩; exact .inl rfl]
  · refine lookdir_far hq hc (E := ![0, 0, 1]) (E' := ![0, 0, 1]) ?_ ?_ a
    · intro b; fin_cases b <;> [exact is_zero; exact is_zero; exact is_one]
    · intro b; fin_cases b <;> [exact .inl rfl; exact .inl rfl; exact .inr ⟨by simp, h⟩]

/-! ### Non-vacuity -/

/-- A camera turned by half a turn about the x axis. -/
theorem halfTurn_near (ε : ℝ) (hε : 0 ≤ ε) : NearUnit lib ε (⟨0, 1, 0, 0⟩ : Quat (RustFloat f lib)) := by
  have h0 := is_zero (f := f) (lib := lib)
  have h1 := is_one (f := f) (lib := lib)
  refine ⟨h0.1, h1.1, h0.1, h0.1, ?_⟩
  show |Flt.val (f := f) (0 : RustFloat f lib) ^ 2 + Flt.val (f := f) (1 : RustFloat f lib) ^ 2 +
    Flt.val (f := f) (0 : RustFloat f lib) ^ 2 + Flt.val (f := f) (0 : RustFloat f lib) ^ 2 - 1| ≤ ε
  rw [h0.2, h1.2]
  norm_num
  exact hε

theorem bounded_one {M : ℝ} (hM : 1 ≤ M) (v : V3 (RustFloat f lib)) (hv : ∀ a, v a = 0 ∨ v a = 1) (a : Fin 3) :
    Flt.Bounded (f := f) M (v a) := by
  rcases hv a with h | h
  · rw [h]
    exact ⟨is_zero.1, (congrArg abs is_zero.2).le.trans (by rw [abs_zero]; linarith)⟩
  · rw [h]
    exact ⟨is_one.1, (congrArg abs is_one.2).le.trans (by rw [abs_one]; exact hM)⟩

/-- Half a turn about x, seen from `(1, 0, 1)`: the camera looks back along `-z`. -/
example (lib : Libm Format.b64) :
    let e := fromRotationAndCamcenter (⟨0, 1, 0, 0⟩ : Quat (F64 lib)) ![1, 0, 1]
    |Flt.val (f := .b64) (e.forward 2) - -1| ≤ 15 / 10 ^ 14 * 1 := by
  intro e
  have h0 := is_zero (f := .b64) (lib := lib)
  have h1 := is_one (f := .b64) (lib := lib)
  have h := (c96_f64_axes (halfTurn_near (f := .b64) (lib := lib) _ (by norm_num)) (M := 1) le_rfl (by norm_num)
    (c := ![1, 0, 1]) (bounded_one le_rfl _ (by intro a; fin_cases a <;> simp)) _ rfl 2).2.2.2
  have e2 : (fromRotationAndCamcenter ((RustFloat.rounding .b64 lib).quat ⟨0, 1, 0, 0⟩)
      ((RustFloat.rounding .b64 lib).vec ![1, 0, 1])).rotation 2 2 = -1 := by
    show Quat.toRotationMatrix ⟨(RustFloat.rounding .b64 lib).val 0, (RustFloat.rounding .b64 lib).val 1,
      (RustFloat.rounding .b64 lib).val 0, (RustFloat.rounding .b64 lib).val 0⟩ 2 2 = -1
    rw [(RustFloat.rounding .b64 lib).zero.2, (RustFloat.rounding .b64 lib).one.2]
    simp [Quat.toRotationMatrix]
  rw [e2] at h
  exact h

/-- The hypotheses of the other theorems, for the same camera and the points `(0, 1, 0)` and `(1, 1, 1)`. -/
example (lib : Libm Format.b32) :
    let w : Points WorldFrame (F32 lib) 2 := ⟨![![0, 1, 0], ![1, 1, 1]]⟩
    let e := fromRotationAndCamcenter (⟨0, 1, 0, 0⟩ : Quat (F32 lib)) ![1, 0, 1]
    |Flt.val (f := .b32) ((e.cameraToWorld (e.worldToCamera w)).data 1 2) - 1| ≤ 45 / 10 ^ 6 := by
  intro w e
  have h := (c96_f32_world_trip (halfTurn_near (f := .b32) (lib := lib) _ (by norm_num)) (M := 1) le_rfl (by norm_num)
    (c := ![1, 0, 1]) (bounded_one le_rfl _ (by intro a; fin_cases a <;> simp)) w 1
    (bounded_one le_rfl _ (by intro a; fin_cases a <;> simp [w])) 2).2
  have e1 : Flt.val (f := .b32) (w.data 1 2) = 1 := is_one.2
  rw [e1, _root_.mul_one] at h
  exact h

/-- An `f64` camera at `(0, 0, 2^60)`: the direction it looks in cannot be computed. -/
example (lib : Libm Format.b64) : ∃ x : F64 lib, Is x (2 ^ (60 : ℤ)) ∧
    ∀ a, (fromRotationAndCamcenter ⟨1, 0, 0, 0⟩ ![0, 0, x]).forward a = (Flt.nan : Flt .b64) := by
  have hr : Format.b64.Rep (2 ^ (60 : ℤ)) := Format.rep_pow (by decide)
  have hm : Format.b64.Mag |(2 : ℝ) ^ (60 : ℤ)| := by
    rw [abs_of_pos (by positivity)]
    exact ⟨zpow_lt_zpow_right₀ (by norm_num) (show (60 : ℤ) < 1024 by norm_num), hr⟩
  have hx : Is (lib := lib) (Flt.ofReal .b64 false (2 ^ (60 : ℤ))) (2 ^ (60 : ℤ)) := Flt.ofReal_exact hm
  refine ⟨_, hx, fun a => (c96_far_away _ ⟨is_one, is_zero, is_zero, is_zero⟩ _ ?_ a).2.2 ?_⟩
  · intro b
    fin_cases b <;> [exact is_zero.1; exact is_zero.1; exact hx.1]
  · show _ < |Flt.val (f := .b64) (Flt.ofReal .b64 false (2 ^ (60 : ℤ)))|
    rw [hx.2, abs_of_pos (by positivity)]
    exact zpow_lt_zpow_right₀ (by norm_num) (show ((53 : ℕ) : ℤ) + 1 < 60 by norm_num)

end

end CamGeom

import Verif.Lemmas.RoundingView
import Verif.Lemmas.ViewTight
import Verif.Lemmas.Householder
import Verif.Props.FromView
import Verif.Props.Symmetry
import Verif.Props.PoseFacts
import Verif.Props.RoundingPose
import Verif.Props.RoundingRays
import Mathlib.Analysis.Real.Pi.Bounds

/-!
# C76: rounding error of `from_view`

The error grows like `u / s` where `s` is the sine of the angle between the view direction and the up
vector.
-/

namespace CamGeom
open Spec Matrix ExtrinsicParameters Rounding

namespace Spec

/-- Sine of the angle between two vectors. -/
noncomputable def sine (d u : Vec) : ℝ := len (d ⨯₃ u) / (len d * len u)

end Spec

section
variable {R : Type} [Scalar R] {fl : Rounding R}

theorem len_cross_le (a b : Vec) : len (a ⨯₃ b) ≤ len a * len b := by
  refine le_of_sq_le_sq ?_ (mul_nonneg (len_nonneg _) (len_nonneg _))
  rw [mul_pow, len_sq, len_sq, len_sq]
  simp only [dotProduct, Fin.sum_univ_three, cross_apply]
  simp
  nlinarith [sq_nonneg (a 0 * b 0 + a 1 * b 1 + a 2 * b 2)]

/-- The computed unit vector of a computed vector. -/
theorem normalize_near' (m : RoundingMore fl) (hu1 : fl.u ≤ 1 / 100) (hω : fl.ω ≤ 1) {d : V3 R} {D : Vec}
    {e : ℝ} (hd : ∀ a, |fl.val (d a) - D a| ≤ e) (hD : D ≠ 0) (he : 20 * e ≤ len D)
    (hωD : 4 * fl.ω ≤ len D ^ 2) (hfn : fl.isFinite (V3.norm d)) (a : Fin 3)
    (hf : fl.isFinite (V3.normalize d a)) :
    |fl.val (V3.normalize d a) - V3.normalize D a| ≤ 11 * fl.u + 3 * e / len D := by
  have hDp := len_pos.2 hD
  have h1 : len (vvec fl d - D) ≤ 2 * e := len_le_entries hd
  have h2 : 9 / 10 * len D ≤ len (vvec fl d) := by
    have e1 := len_add_le (D - vvec fl d) (vvec fl d)
    rw [sub_add_cancel] at e1
    have e3 : len (D - vvec fl d) = len (vvec fl d - D) := by
      have : D - vvec fl d = (-1 : ℝ) • (vvec fl d - D) := by simp
      rw [this, len_smul]; simp
    linarith
  have h3 : vvec fl d ≠ 0 := len_pos.1 (by linarith)
  have h4 : 3 * fl.ω ≤ len (vvec fl d) ^ 2 := by
    have : (9 / 10 * len D) ^ 2 ≤ len (vvec fl d) ^ 2 := by gcongr
    nlinarith
  have h5 := normalize_near m le_rfl hu1 hω d h4 h3 hfn a hf
  have h6 := normalize_perturb h3 hD (e := e) hd a
  have h7 := abs_add_le (fl.val (V3.normalize d a) - V3.normalize (vvec fl d) a)
    (V3.normalize (vvec fl d) a - V3.normalize D a)
  rw [sub_add_sub_cancel] at h7
  linarith

theorem det2_near {x y z w : R} {X Y Z W α β A B p : ℝ} (hx : |fl.val x - X| ≤ α)
    (hy : |fl.val y - Y| ≤ β) (hz : |fl.val z - Z| ≤ α) (hw : |fl.val w - W| ≤ β) (hX : |X| ≤ A)
    (hY : |Y| ≤ B) (hZ : |Z| ≤ A) (hW : |W| ≤ B)
    (hp : α * (B + β) + A * β + fl.u * ((A + α) * (B + β) + fl.ω) ≤ p)
    (hf : fl.isFinite (x * y - z * w)) :
    |fl.val (x * y - z * w) - (X * Y - Z * W)| ≤ 2 * p + fl.u * (2 * (A * B) + 2 * p) := by
  obtain ⟨f1, f2, -⟩ := fl.sub hf
  have n1 := (mul_near f1 hx hy hX hY).trans hp
  have n2 := (mul_near f2 hz hw hZ hW).trans hp
  have hA : 0 ≤ A := (abs_nonneg _).trans hX
  have n3 := sub_near (A := 2 * (A * B)) hf n1 n2 (by
    refine (abs_sub _ _).trans ?_
    rw [abs_mul, abs_mul]
    have e1 := mul_le_mul hX hY (abs_nonneg _) hA
    have e2 := mul_le_mul hZ hW (abs_nonneg _) hA
    linarith)
  refine n3.trans (le_of_eq (by ring))

/-- A computed cross product. -/
theorem cross_near {a b : V3 R} {A B : Vec} {α β A₁ B₁ p : ℝ} (ha : ∀ i, |fl.val (a i) - A i| ≤ α)
    (hb : ∀ i, |fl.val (b i) - B i| ≤ β) (hA : ∀ i, |A i| ≤ A₁) (hB : ∀ i, |B i| ≤ B₁)
    (hp : α * (B₁ + β) + A₁ * β + fl.u * ((A₁ + α) * (B₁ + β) + fl.ω) ≤ p) (i : Fin 3)
    (hf : fl.isFinite (V3.cross a b i)) :
    |fl.val (V3.cross a b i) - (A ⨯₃ B) i| ≤ 2 * p + fl.u * (2 * (A₁ * B₁) + 2 * p) := by
  rw [cross_apply]
  fin_cases i
  · exact det2_near (ha _) (hb _) (ha _) (hb _) (hA _) (hB _) (hA _) (hB _) hp hf
  · exact det2_near (ha _) (hb _) (ha _) (hb _) (hA _) (hB _) (hA _) (hB _) hp hf
  · exact det2_near (ha _) (hb _) (ha _) (hb _) (hA _) (hB _) (hA _) (hB _) hp hf

/-- A finite quaternion comes from a finite matrix. -/
theorem shepperd_finite (m : RoundingMore fl) {M : Mat 3 3 R} (hf : QFinite fl (shepperd M)) (a b : Fin 3) :
    fl.isFinite (M a b) := by
  suffices h : (fl.isFinite (M 0 0) ∧ fl.isFinite (M 0 1) ∧ fl.isFinite (M 0 2)) ∧
      (fl.isFinite (M 1 0) ∧ fl.isFinite (M 1 1) ∧ fl.isFinite (M 1 2)) ∧
      (fl.isFinite (M 2 0) ∧ fl.isFinite (M 2 1) ∧ fl.isFinite (M 2 2)) by
    obtain ⟨⟨h1, h2, h3⟩, ⟨h4, h5, h6⟩, h7, h8, h9⟩ := h
    fin_cases a <;> fin_cases b <;> assumption
  unfold shepperd at hf
  dsimp only at hf
  split_ifs at hf
  · obtain ⟨f1, f2, f3, f4⟩ := hf
    dsimp only at f1 f2 f3 f4
    have fs := (m.sqrt (fl.mul (fl.mul f1).2.1).1).1
    have ft := fl.add (fl.add fs).1
    have ft2 := fl.add ft.1
    have g2 := fl.sub (fl.div f2).1
    have g3 := fl.sub (fl.div f3).1
    have g4 := fl.sub (fl.div f4).1
    exact ⟨⟨ft2.1, g4.2.1, g3.1⟩, ⟨g4.1, ft2.2.1, g2.2.1⟩, g3.2.1, g2.1, ft.2.1⟩
  · obtain ⟨f1, f2, f3, f4⟩ := hf
    dsimp only at f1 f2 f3 f4
    have fs := fl.sub (m.sqrt (fl.mul (fl.mul f2).2.1).1).1
    have ft := fl.sub fs.1
    have ft2 := fl.add ft.1
    have g1 := fl.sub (fl.div f1).1
    have g3 := fl.add (fl.div f3).1
    have g4 := fl.add (fl.div f4).1
    exact ⟨⟨ft2.2.1, g3.1, g4.1⟩, ⟨g3.2.1, ft.2.1, g1.2.1⟩, g4.2.1, g1.1, fs.2.1⟩
  · obtain ⟨f1, f2, f3, f4⟩ := hf
    dsimp only at f1 f2 f3 f4
    have fs := fl.sub (m.sqrt (fl.mul (fl.mul f3).2.1).1).1
    have ft := fl.sub fs.1
    have ft2 := fl.add ft.1
    have g1 := fl.sub (fl.div f1).1
    have g2 := fl.add (fl.div f2).1
    have g4 := fl.add (fl.div f4).1
    exact ⟨⟨ft.2.1, g2.1, g1.1⟩, ⟨g2.2.1, ft2.2.1, g4.1⟩, g1.2.1, g4.2.1, fs.2.1⟩
  · obtain ⟨f1, f2, f3, f4⟩ := hf
    dsimp only at f1 f2 f3 f4
    have fs := fl.sub (m.sqrt (fl.mul (fl.mul f4).2.1).1).1
    have ft := fl.sub fs.1
    have ft2 := fl.add ft.1
    have g1 := fl.sub (fl.div f1).1
    have g2 := fl.add (fl.div f2).1
    have g3 := fl.add (fl.div f3).1
    exact ⟨⟨ft.2.1, g1.2.1, g2.1⟩, ⟨g1.1, fs.2.1, g3.1⟩, g2.2.1, g3.2.1, ft2.2.1⟩

/-- The axes `face_towards` computes exactly. -/
theorem faceTowards_real {d u : Vec} (h : d ⨯₃ u ≠ 0) :
    let z := V3.normalize d
    let x := V3.normalize (u ⨯₃ z)
    faceTowardsMatrix z u =
      ![![x 0, (z ⨯₃ x) 0, z 0], ![x 1, (z ⨯₃ x) 1, z 1], ![x 2, (z ⨯₃ x) 2, z 2]] ∧
    IsRotation (faceTowardsMatrix z u) ∧ len z = 1 ∧ u ⨯₃ z ≠ 0 ∧ len x = 1 ∧
      len (u ⨯₃ z) = sine d u * len u := by
  intro z x
  have hd0 : d ≠ 0 := by rintro rfl; apply h; simp
  have hu0 : u ≠ 0 := by rintro rfl; apply h; simp
  have hlen := len_pos.2 hd0
  have hlu := len_pos.2 hu0
  have hz : len z = 1 := len_normalize hd0
  have hzd : d = len d • z := by
    rw [show z = V3.normalize d from rfl, normalize_eq, smul_smul, mul_inv_cancel₀ hlen.ne', one_smul]
  have huz : u ⨯₃ z ≠ 0 := by
    intro h0
    apply h
    rw [hzd, ← cross_anticomm, map_smul, h0]; simp
  have hx : len x = 1 := len_normalize huz
  have hkpos := len_pos.2 huz
  have hxk : u ⨯₃ z = len (u ⨯₃ z) • x := by
    rw [show x = V3.normalize (u ⨯₃ z) from rfl, normalize_eq, smul_smul, mul_inv_cancel₀ hkpos.ne',
      one_smul]
  have hxz : x ⬝ᵥ z = 0 := by
    have : len (u ⨯₃ z) * (x ⬝ᵥ z) = 0 := by
      rw [← smul_eq_mul, ← smul_dotProduct, ← hxk, dotProduct_comm, dot_cross_self]
    exact (mul_eq_zero.1 this).resolve_left hkpos.ne'
  have hm : faceTowardsMatrix z u =
      ![![x 0, (z ⨯₃ x) 0, z 0], ![x 1, (z ⨯₃ x) 1, z 1], ![x 2, (z ⨯₃ x) 2, z 2]] := by
    simp only [faceTowardsMatrix, normalize_of_len_one hz, cross_eq, x]
  refine ⟨hm, ?_, hz, huz, hx, ?_⟩
  · rw [hm]
    exact isRotation_of_xz (by rw [← len_sq, hx, one_pow]) (by rw [← len_sq, hz, one_pow]) hxz
  · have h1 : len (d ⨯₃ u) = len d * len (u ⨯₃ z) := by
      conv_lhs => rw [hzd]
      have h2 : (len d • z) ⨯₃ u = (-len d) • (u ⨯₃ z) := by
        rw [← cross_anticomm, map_smul, neg_smul]
      rw [h2, len_smul, abs_neg, abs_of_pos hlen]
    unfold sine
    rw [h1]
    field_simp

theorem sine_le_one (d u : Vec) : sine d u ≤ 1 :=
  div_le_one_of_le₀ (len_cross_le d u) (mul_nonneg (len_nonneg _) (len_nonneg _))

/-- The lengths computed by `from_view` neither overflow nor underflow. -/
structure ViewInRange (fl : Rounding R) (c l up : V3 R) : Prop where
  dir_finite : fl.isFinite (V3.norm (V3.sub l c))
  unit_finite : fl.isFinite (V3.norm (V3.normalize (V3.sub l c)))
  cross_finite : fl.isFinite
    (V3.norm (V3.cross up (V3.normalize (V3.normalize (V3.sub l c)))))
  dir_big : 4 * fl.ω ≤ len (fl.vec l - fl.vec c) ^ 2
  up_big : fl.ω ≤ len (fl.vec up)
  cross_big : 4 * fl.ω ≤ (sine (fl.vec l - fl.vec c) (fl.vec up) * len (fl.vec up)) ^ 2

/-- The computed axes of `face_towards`. -/
theorem face_tight (m : RoundingMore fl) (hω : fl.ω ≤ 1 / 4) {c l up : V3 R}
    (hr : ViewInRange fl c l up) {s : ℝ} (hs : s = sine (fl.vec l - fl.vec c) (fl.vec up)) (hs0 : 0 < s)
    (hsu : 11000 * fl.u ≤ s)
    (hf : ∀ a b, fl.isFinite (faceTowardsMatrix (V3.normalize (V3.sub l c)) up a b))
    (hfd : ∀ a, fl.isFinite (V3.normalize (V3.sub l c) a)) :
    len (fl.vec (V3.normalize (V3.sub l c)) - V3.normalize (fl.vec l - fl.vec c)) ≤ 7 * fl.u ∧
    ∀ a b, |fl.val (faceTowardsMatrix (V3.normalize (V3.sub l c)) up a b) -
      faceTowardsMatrix (V3.normalize (fl.vec l - fl.vec c)) (fl.vec up) a b| ≤ 52 * (fl.u / s) := by
  have hu0 := fl.u_nonneg
  have hω0 := fl.ω_nonneg
  set D := fl.vec l - fl.vec c with hD
  set U := fl.vec up with hU
  have hs1 : s ≤ 1 := hs ▸ sine_le_one D U
  have hu1 : fl.u ≤ 1 / 11000 := by linarith
  have hDU : D ⨯₃ U ≠ 0 := by
    intro h
    rw [hs, sine, h, len_eq_zero.2 rfl, zero_div] at hs0
    exact lt_irrefl _ hs0
  have hD0 : D ≠ 0 := by intro h; apply hDU; rw [h]; simp
  have hDp := len_pos.2 hD0
  obtain ⟨hface, -, hz1, hP0, hx1, hP⟩ := faceTowards_real hDU
  set Z := V3.normalize D with hZ
  set X := V3.normalize (U ⨯₃ Z) with hX
  rw [← hs] at hP
  have hU0 : U ≠ 0 := by intro h; apply hDU; rw [h]; simp
  have hUp := len_pos.2 hU0
  set dir := V3.sub l c with hdir
  set z₁ := V3.normalize dir with hz₁
  set z := V3.normalize z₁ with hz
  set x := V3.normalize (V3.cross up z) with hx
  -- finiteness of the axes
  have fx : ∀ a, fl.isFinite (x a) := by
    intro a; fin_cases a; exacts [hf 0 0, hf 1 0, hf 2 0]
  have fy : ∀ a, fl.isFinite (V3.cross z x a) := by
    intro a; fin_cases a; exacts [hf 0 1, hf 1 1, hf 2 1]
  have fz : ∀ a, fl.isFinite (z a) := by
    intro a; fin_cases a; exacts [hf 0 2, hf 1 2, hf 2 2]
  -- the view direction
  have n0 : len (vvec fl dir - D) ≤ fl.u * len D := by
    have : len (vvec fl dir - D) ≤ len (fl.u • D) := len_mono fun a => by
      have f1 := (fl.div (hfd a)).1
      rw [Pi.smul_apply, smul_eq_mul, abs_mul, abs_of_nonneg hu0]
      exact (fl.sub (x := l a) (y := c a) f1).2.2
    rwa [len_smul, abs_of_nonneg hu0] at this
  have n1 : len (vvec fl z₁ - Z) ≤ 7 * fl.u := by
    have := normalize_tight' m (by linarith) hω hu0 (by linarith) n0 hD0 hr.dir_big hr.dir_finite hfd
    linarith
  refine ⟨n1, ?_⟩
  have hZ0 : Z ≠ 0 := len_pos.1 (by rw [hz1]; norm_num)
  have n2 : len (vvec fl z - Z) ≤ 13 * fl.u := by
    have := normalize_tight' m (by linarith) hω (e := 7 * fl.u) (by linarith) (by linarith)
      (by rw [hz1, _root_.mul_one]; exact n1) hZ0 (by rw [hz1]; linarith) hr.unit_finite fz
    rw [normalize_of_len_one hz1] at this
    linarith
  have hzl : len (vvec fl z) ≤ 1002 / 1000 := by
    have := len_add_le (vvec fl z - Z) Z
    rw [sub_add_cancel, hz1] at this
    linarith
  -- the x axis
  have n3 : len (vvec fl (V3.cross up z) - U ⨯₃ Z) ≤ 251 / 10 * fl.u * len U := by
    have h1 := cross_tight (fl := fl) (by linarith) (fun a => (fl.div (fx a)).1 : ∀ a, fl.isFinite (V3.cross up z a))
    have h2 := len_sub_le' (vvec fl (V3.cross up z)) (vvec fl up ⨯₃ vvec fl z) (U ⨯₃ Z)
    have h3 : vvec fl up ⨯₃ vvec fl z - U ⨯₃ Z = U ⨯₃ (vvec fl z - Z) := by rw [map_sub]; rfl
    rw [h3] at h2
    have h4 := (len_cross_le U (vvec fl z - Z)).trans (mul_le_mul_of_nonneg_left n2 hUp.le)
    have h5 : len (vvec fl up) * len (vvec fl z) + 2 * fl.ω ≤ 3002 / 1000 * len U := by
      have e : len (vvec fl up) = len U := rfl
      have := mul_le_mul_of_nonneg_left hzl hUp.le
      rw [e]
      linarith [hr.up_big]
    have h6 : 402 / 100 * fl.u * (len (vvec fl up) * len (vvec fl z) + 2 * fl.ω) ≤
        402 / 100 * fl.u * (3002 / 1000 * len U) := mul_le_mul_of_nonneg_left h5 (by linarith)
    have := mul_nonneg hu0 hUp.le
    linarith
  have hus : fl.u ≤ fl.u / s := by rw [le_div_iff₀ hs0]; nlinarith
  have hb : fl.u / s ≤ 1 / 11000 := by rw [div_le_iff₀ hs0]; linarith
  set b := fl.u / s with hbdef
  have hb0 : 0 ≤ b := div_nonneg hu0 hs0.le
  have n4 : len (vvec fl x - X) ≤ 32 * b := by
    have := normalize_tight' m (by linarith) hω (e := 251 / 10 * b) (by linarith) (by linarith)
      (by rw [hP]; refine n3.trans (le_of_eq ?_); rw [hbdef]; field_simp) hP0
      (by rw [hP, hs]; exact hr.cross_big) hr.cross_finite fx
    linarith
  have hxl : len (vvec fl x) ≤ 1003 / 1000 := by
    have := len_add_le (vvec fl x - X) X
    rw [sub_add_cancel, hx1] at this
    linarith
  -- the y axis
  have n5 : len (vvec fl (V3.cross z x) - Z ⨯₃ X) ≤ 52 * b := by
    have h1 := cross_tight (fl := fl) (by linarith) fy
    have h2 := len_sub_le' (vvec fl (V3.cross z x)) (vvec fl z ⨯₃ vvec fl x) (Z ⨯₃ X)
    have h3 : vvec fl z ⨯₃ vvec fl x - Z ⨯₃ X = (vvec fl z - Z) ⨯₃ vvec fl x + Z ⨯₃ (vvec fl x - X) := by
      rw [map_sub, map_sub, LinearMap.sub_apply]; abel
    have h4 := len_add_le ((vvec fl z - Z) ⨯₃ vvec fl x) (Z ⨯₃ (vvec fl x - X))
    rw [← h3] at h4
    have h5 := (len_cross_le (vvec fl z - Z) (vvec fl x)).trans
      (mul_le_mul n2 hxl (len_nonneg _) (by linarith))
    have h6 := len_cross_le Z (vvec fl x - X)
    rw [hz1, _root_.one_mul] at h6
    have h7 : len (vvec fl z) * len (vvec fl x) + 2 * fl.ω ≤ 151 / 100 := by
      have := mul_le_mul hzl hxl (len_nonneg _) (by norm_num)
      linarith
    have h8 : 402 / 100 * fl.u * (len (vvec fl z) * len (vvec fl x) + 2 * fl.ω) ≤ 402 / 100 * fl.u * (151 / 100) :=
      mul_le_mul_of_nonneg_left h7 (by linarith)
    linarith
  rw [hface]
  have co : ∀ {v : V3 R} {V : Vec} {e : ℝ}, len (vvec fl v - V) ≤ e → e ≤ 52 * b →
      ∀ a, |fl.val (v a) - V a| ≤ 52 * b := fun h he a => ((abs_coord_le _ a).trans h).trans he
  have k1 := co n4 (by linarith)
  have k2 := co n2 (by linarith)
  have k3 := co n5 le_rfl
  intro a b
  fin_cases a <;> fin_cases b
  exacts [k1 0, k3 0, k2 0, k1 1, k3 1, k2 1, k1 2, k3 2, k2 2]

theorem neg_mul_rotation {Q Q' P : Quat ℝ} (h : Q' = Q ∨ Q' = ⟨-Q.w, -Q.i, -Q.j, -Q.k⟩) :
    (Q'.inverse.mul P).toRotationMatrix = (Q.inverse.mul P).toRotationMatrix := by
  rcases h with rfl | rfl
  · rfl
  · funext a b
    fin_cases a <;> fin_cases b <;> simp [Quat.toRotationMatrix, Quat.mul, Quat.inverse] <;> ring

/-- The quaternion stored by `from_view`, measured in length. -/
theorem view_quaternion (m : RoundingMore fl) (vw : RoundingView fl) (hbig : 4 ≤ m.big)
    (hω : fl.ω ≤ 1 / 4) {c l up : V3 R} (hr : ViewInRange fl c l up) {s : ℝ}
    (hs : s = sine (fl.vec l - fl.vec c) (fl.vec up)) (hs0 : 0 < s) (hsu : 11000 * fl.u ≤ s)
    (hf : QFinite fl (fromView nalgebra c l up).pose.rotation) :
    ∃ Q, UnitQuat Q ∧ (fromView nalgebra (fl.vec c) (fl.vec l) (fl.vec up)).rotation =
        Q.toRotationMatrix ∧
      qlen (qdiff (fl.quat (fromView nalgebra c l up).pose.rotation) Q) ≤ 350 * (fl.u / s) := by
  have hu0 := fl.u_nonneg
  have hω0 := fl.ω_nonneg
  set D := fl.vec l - fl.vec c with hD
  set U := fl.vec up with hU
  have hs1 : s ≤ 1 := hs ▸ sine_le_one D U
  have hu1 : fl.u ≤ 1 / 11000 := by linarith
  have hDU : D ⨯₃ U ≠ 0 := by
    intro h
    rw [hs, sine, h, len_eq_zero.2 rfl, zero_div] at hs0
    exact lt_irrefl _ hs0
  set z₁ := V3.normalize (V3.sub l c) with hz₁
  set M := faceTowardsMatrix z₁ up with hM
  set q₂ := Quat.fromAxisAngle z₁ (Scalar.pi : R) with hq₂
  have e : (fromView nalgebra c l up).pose.rotation = (shepperd M).inverse.mul q₂ := rfl
  rw [e] at hf ⊢
  -- finiteness
  obtain ⟨g1, g2, -⟩ := fl.sub hf.w
  obtain ⟨g3, g4, -⟩ := fl.sub g1
  obtain ⟨g5, g6, -⟩ := fl.sub g3
  have p1 := fl.mul g5
  have p2 := fl.mul g6
  have p3 := fl.mul g4
  have p4 := fl.mul g2
  have fq : QFinite fl (shepperd M) := ⟨p1.1, (fl.neg p2.1).1, (fl.neg p3.1).1, (fl.neg p4.1).1⟩
  have fM := shepperd_finite m fq
  have fd : ∀ a, fl.isFinite (z₁ a) := by
    intro a; fin_cases a
    exacts [(fl.mul p2.2.1).1, (fl.mul p3.2.1).1, (fl.mul p4.2.1).1]
  obtain ⟨n1, nM⟩ := face_tight m hω hr hs hs0 hsu fM fd
  obtain ⟨-, hrot, hz1, -⟩ := faceTowards_real hDU
  set Z := V3.normalize D with hZ
  have hb : fl.u / s ≤ 1 / 11000 := by rw [div_le_iff₀ hs0]; linarith
  have hus : fl.u ≤ fl.u / s := by rw [le_div_iff₀ hs0]; nlinarith
  set b := fl.u / s with hbdef
  have hb0 : 0 ≤ b := div_nonneg hu0 hs0.le
  obtain ⟨Q₁, hQ₁, hQM, hQn⟩ := shepperd_tight m vw.lit_quarter hbig hrot nM (by linarith) (by linarith)
    (by linarith) fq
  -- the half turn
  have hZ1 : Z ⬝ᵥ Z = 1 := by rw [← len_sq, hz1, one_pow]
  have hZc : ∀ a, |Z a| ≤ 1 := fun a => hz1 ▸ abs_coord_le Z a
  have hP : Quat.fromAxisAngle Z Real.pi = ⟨0, Z 0, Z 1, Z 2⟩ := by
    have hc : Real.cos (Real.pi / ((2 : ℚ) : ℝ)) = 0 := by norm_num
    have hs : Real.sin (Real.pi / ((2 : ℚ) : ℝ)) = 1 := by norm_num
    simp only [Quat.fromAxisAngle, cos_real, sin_real, lit_real, hc, hs, _root_.mul_one]
  have hPu := (rotate_pi hZ1 0).1
  have nP : qlen (qdiff (fl.quat q₂) (Quat.fromAxisAngle Z Real.pi)) ≤ 17 * fl.u := by
    rw [hP]
    refine (qlen_le_parts _).trans ?_
    set σ := fl.val (Scalar.sin (Scalar.pi / Scalar.lit 2 : R)) with hσ
    have hσ1 : |σ - 1| ≤ 4 * fl.u := vw.sin_half_pi
    have hσ2 : |σ| ≤ 1001 / 1000 := by
      have := abs_add_le (σ - 1) 1
      rw [sub_add_cancel, abs_one] at this
      linarith
    set v := vvec fl z₁ with hv
    have hvl : len v ≤ 1001 / 1000 := by
      have := len_add_le (v - Z) Z
      rw [sub_add_cancel, hz1] at this
      have : len (v - Z) ≤ 7 * fl.u := n1
      linarith
    set y : Vec := fun a => fl.val (q₂.vector a) with hy
    have fin : ∀ a, fl.isFinite (z₁ a * Scalar.sin (Scalar.pi / Scalar.lit 2 : R)) := by
      intro a; fin_cases a; exacts [p2.2.1, p3.2.1, p4.2.1]
    have eq2 : ∀ a, q₂.vector a = z₁ a * Scalar.sin (Scalar.pi / Scalar.lit 2 : R) := by
      intro a; fin_cases a <;> rfl
    have r1 : len (y - σ • v) ≤ fl.u * (len (σ • v) + 2 * fl.ω) := by
      refine len_round fun a => ?_
      have := (fl.mul (fin a)).2.2
      rw [Pi.smul_apply, smul_eq_mul, hy]
      simp only
      rw [eq2, mul_comm σ]
      exact this
    have r2 : len (σ • v) ≤ 1003 / 1000 := by
      rw [len_smul]
      have := mul_le_mul hσ2 hvl (len_nonneg _) (by norm_num)
      linarith
    have r3 : fl.u * (len (σ • v) + 2 * fl.ω) ≤ fl.u * (151 / 100) := by gcongr; linarith
    have r4 : len (σ • v - Z) ≤ 1001 / 1000 * (7 * fl.u) + 4 * fl.u := by
      have e : σ • v - Z = σ • (v - Z) + (σ - 1) • Z := by rw [smul_sub, sub_smul, one_smul]; abel
      rw [e]
      refine (len_add_le _ _).trans ?_
      rw [len_smul, len_smul, hz1, _root_.mul_one]
      exact add_le_add (mul_le_mul hσ2 n1 (len_nonneg _) (by norm_num)) hσ1
    have r5 := len_sub_le' y (σ • v) Z
    have e : (qdiff (fl.quat q₂) ⟨0, Z 0, Z 1, Z 2⟩).vector = y - Z := by
      funext a; fin_cases a <;> rfl
    rw [e]
    have hw : |(qdiff (fl.quat q₂) ⟨0, Z 0, Z 1, Z 2⟩).w| ≤ 4 * fl.u := by
      change |fl.val (Scalar.cos (Scalar.pi / Scalar.lit 2)) - 0| ≤ _
      rw [sub_zero]
      exact vw.cos_half_pi
    linarith
  have nI : QNear fl (3 * (52 * b)) (shepperd M).inverse Q₁.inverse := by
    refine ⟨hQn.w, ?_, ?_, ?_⟩
    · change |fl.val (-(shepperd M).i) - -Q₁.i| ≤ _
      rw [(fl.neg p2.1).2, neg_sub_neg, abs_sub_comm]; exact hQn.i
    · change |fl.val (-(shepperd M).j) - -Q₁.j| ≤ _
      rw [(fl.neg p3.1).2, neg_sub_neg, abs_sub_comm]; exact hQn.j
    · change |fl.val (-(shepperd M).k) - -Q₁.k| ≤ _
      rw [(fl.neg p4.1).2, neg_sub_neg, abs_sub_comm]; exact hQn.k
  have nI' : qlen (qdiff (fl.quat (shepperd M).inverse) Q₁.inverse) ≤ 312 * b := nI.qlen.trans (by linarith)
  have hfin : qlen (qdiff (fl.quat ((shepperd M).inverse.mul q₂))
      (Q₁.inverse.mul (Quat.fromAxisAngle Z Real.pi))) ≤ 350 * b := by
    have l1 := qlen_le_add_diff (fl.quat (shepperd M).inverse) Q₁.inverse
    have l2 := qlen_le_add_diff (fl.quat q₂) (Quat.fromAxisAngle Z Real.pi)
    have u1 := qlen_unit (unitQuat_inverse hQ₁)
    have u2 := qlen_unit hPu
    rw [u1] at l1
    rw [u2] at l2
    have l1' : qlen (fl.quat (shepperd M).inverse) ≤ 103 / 100 := by linarith
    have l2' : qlen (fl.quat q₂) ≤ 1002 / 1000 := by linarith
    have t1 := qmul_tight (fl := fl) (by linarith) hf
    have t2 := qlen_diff_mul (fl.quat (shepperd M).inverse) (fl.quat q₂) Q₁.inverse
      (Quat.fromAxisAngle Z Real.pi)
    rw [u1, _root_.one_mul] at t2
    have t3 := mul_le_mul nI' l2' (qlen_nonneg _) (by linarith)
    have t4 : qlen (fl.quat (shepperd M).inverse) * qlen (fl.quat q₂) + 4 * fl.ω ≤ 204 / 100 := by
      have := mul_le_mul l1' l2' (qlen_nonneg _) (by norm_num)
      linarith
    have t5 := mul_le_mul_of_nonneg_left t4 (show 0 ≤ 81 / 10 * fl.u by linarith)
    have t6 := qlen_triangle (fl.quat ((shepperd M).inverse.mul q₂))
      ((fl.quat (shepperd M).inverse).mul (fl.quat q₂)) (Q₁.inverse.mul (Quat.fromAxisAngle Z Real.pi))
    linarith
  refine ⟨_, unitQuat_mul (unitQuat_inverse hQ₁) hPu, ?_, ?_⟩
  · obtain ⟨hS, hSM⟩ := shepperd_spec hrot
    have e2 : (fromView nalgebra (fl.vec c) (fl.vec l) U).rotation =
        ((shepperd (faceTowardsMatrix Z U)).inverse.mul
          (Quat.fromAxisAngle Z Real.pi)).toRotationMatrix := by
      rw [hZ, hD, ← sub_eq]; rfl
    rw [e2]
    refine neg_mul_rotation ((c51_quaternion_sign hQ₁ hS 0).1 ?_)
    exact hQM.trans hSM.symm
  · exact hfin

/-- C76: the quaternion stored by `from_view` is within `350 u / s` of a unit quaternion of the exact view
(the Euclidean distance, hence every component), `s` being the sine of the angle between the view direction
and the up vector. -/
theorem c76_quaternion (m : RoundingMore fl) (vw : RoundingView fl) (hbig : 4 ≤ m.big)
    (hω : fl.ω ≤ 1 / 4) {c l up : V3 R} (hr : ViewInRange fl c l up) {s : ℝ}
    (hs : s = sine (fl.vec l - fl.vec c) (fl.vec up)) (hs0 : 0 < s) (hsu : 11000 * fl.u ≤ s)
    (hf : QFinite fl (fromView nalgebra c l up).pose.rotation) :
    ∃ Q, UnitQuat Q ∧ (fromView nalgebra (fl.vec c) (fl.vec l) (fl.vec up)).rotation =
        Q.toRotationMatrix ∧
      (let q := (fromView nalgebra c l up).pose.rotation;
        (fl.val q.w - Q.w) ^ 2 + (fl.val q.i - Q.i) ^ 2 + (fl.val q.j - Q.j) ^ 2 +
          (fl.val q.k - Q.k) ^ 2 ≤ (350 * fl.u / s) ^ 2) ∧
      QNear fl (350 * fl.u / s) (fromView nalgebra c l up).pose.rotation Q := by
  obtain ⟨Q, hQ, hrot, hn⟩ := view_quaternion m vw hbig hω hr hs hs0 hsu hf
  rw [← mul_div_assoc] at hn
  obtain ⟨hw, hi, hj, hk⟩ := qlen_comp (qdiff (fl.quat (fromView nalgebra c l up).pose.rotation) Q)
  refine ⟨Q, hQ, hrot, ?_, hw.trans hn, hi.trans hn, hj.trans hn, hk.trans hn⟩
  have := pow_le_pow_left₀ (qlen_nonneg _) hn 2
  rwa [qlen_sq] at this

/-- Nearby quaternions have nearby rotation matrices. -/
theorem quat_rotation_near {η : ℝ} {q Q : Quat ℝ} (hQ : UnitQuat Q) (w : |q.w - Q.w| ≤ η)
    (i : |q.i - Q.i| ≤ η) (j : |q.j - Q.j| ≤ η) (k : |q.k - Q.k| ≤ η) (hη : η ≤ 1 / 4) (a b : Fin 3) :
    |q.toRotationMatrix a b - Q.toRotationMatrix a b| ≤ 9 * η := by
  obtain ⟨bw, bi, bj, bk⟩ := unitQuat_abs hQ
  have hη0 : 0 ≤ η := (abs_nonneg _).trans w
  have hηη : η * η ≤ η * (1 / 4) := by gcongr
  have prod : ∀ {x y X Y : ℝ}, |x - X| ≤ η → |y - Y| ≤ η → |X| ≤ 1 → |Y| ≤ 1 →
      |x * y - X * Y| ≤ 9 / 4 * η := by
    intro x y X Y hx hy hX hY
    have hy' : |y| ≤ 1 + η := by
      have := abs_add_le (y - Y) Y
      rw [sub_add_cancel] at this; linarith
    rw [show x * y - X * Y = (x - X) * y + X * (y - Y) by ring]
    refine (abs_add_le _ _).trans ?_
    rw [abs_mul, abs_mul]
    have h1 := mul_le_mul hx hy' (abs_nonneg _) hη0
    have h2 := mul_le_mul hX hy (abs_nonneg _) zero_le_one
    linarith
  have diag : ∀ {x y z t X Y Z T : ℝ}, |x - X| ≤ 9 / 4 * η → |y - Y| ≤ 9 / 4 * η →
      |z - Z| ≤ 9 / 4 * η → |t - T| ≤ 9 / 4 * η →
      |(x + y - z - t) - (X + Y - Z - T)| ≤ 9 * η ∧ |(x - y + z - t) - (X - Y + Z - T)| ≤ 9 * η ∧
      |(x - y - z + t) - (X - Y - Z + T)| ≤ 9 * η := by
    intro x y z t X Y Z T h1 h2 h3 h4
    rw [abs_le] at h1 h2 h3 h4
    refine ⟨?_, ?_, ?_⟩ <;> rw [abs_le] <;> constructor <;> linarith [h1.1, h1.2, h2.1, h2.2, h3.1, h3.2]
  have off : ∀ {x y X Y : ℝ}, |x - X| ≤ 9 / 4 * η → |y - Y| ≤ 9 / 4 * η →
      |(x * 2 + y * 2) - (X * 2 + Y * 2)| ≤ 9 * η ∧ |(x * 2 - y * 2) - (X * 2 - Y * 2)| ≤ 9 * η := by
    intro x y X Y h1 h2
    rw [abs_le] at h1 h2
    refine ⟨?_, ?_⟩ <;> rw [abs_le] <;> constructor <;> linarith [h1.1, h1.2, h2.1, h2.2]
  have ww := prod w w bw bw
  have ii := prod i i bi bi
  have jj := prod j j bj bj
  have kk := prod k k bk bk
  have wi := prod w i bw bi
  have wj := prod w j bw bj
  have wk := prod w k bw bk
  have ij := prod i j bi bj
  have ik := prod i k bi bk
  have jk := prod j k bj bk
  have two : (Scalar.lit 2 : ℝ) = 2 := by simp
  simp only [Quat.toRotationMatrix, two]
  fin_cases a <;> fin_cases b
  · exact (diag ww ii jj kk).1
  · exact (off ij wk).2
  · exact (off wj ik).1
  · exact (off wk ij).1
  · exact (diag ww ii jj kk).2.1
  · exact (off jk wi).2
  · exact (off ik wj).2
  · exact (off wi jk).1
  · exact (diag ww ii jj kk).2.2

/-- Nearby quaternions have nearby norms. -/
theorem quat_norm_near {η : ℝ} {q Q : Quat ℝ} (hQ : UnitQuat Q) (w : |q.w - Q.w| ≤ η)
    (i : |q.i - Q.i| ≤ η) (j : |q.j - Q.j| ≤ η) (k : |q.k - Q.k| ≤ η) (hη : η ≤ 1 / 4) :
    |quatNormSq q - 1| ≤ 5 * η := by
  have hη0 : 0 ≤ η := (abs_nonneg _).trans w
  have hηη : η * η ≤ η * (1 / 4) := by gcongr
  unfold UnitQuat at hQ
  have hsum : |Q.w| + |Q.i| + |Q.j| + |Q.k| ≤ 2 := by
    refine le_of_sq_le_sq ?_ zero_le_two
    rw [← sq_abs Q.w, ← sq_abs Q.i, ← sq_abs Q.j, ← sq_abs Q.k] at hQ
    linarith [sq_nonneg (|Q.w| - |Q.i|), sq_nonneg (|Q.w| - |Q.j|), sq_nonneg (|Q.w| - |Q.k|),
      sq_nonneg (|Q.i| - |Q.j|), sq_nonneg (|Q.i| - |Q.k|), sq_nonneg (|Q.j| - |Q.k|)]
  have sq : ∀ {x X : ℝ}, |x - X| ≤ η → |x ^ 2 - X ^ 2| ≤ 2 * |X| * η + η / 4 := by
    intro x X hx
    rw [show x ^ 2 - X ^ 2 = 2 * X * (x - X) + (x - X) * (x - X) by ring]
    refine (abs_add_le _ _).trans ?_
    rw [abs_mul, abs_mul, abs_mul, abs_two]
    have h1 := mul_le_mul hx hx (abs_nonneg _) hη0
    have h2 : 2 * |X| * |x - X| ≤ 2 * |X| * η := by gcongr
    linarith
  have e : quatNormSq q - 1 = (q.w ^ 2 - Q.w ^ 2) + (q.i ^ 2 - Q.i ^ 2) + (q.j ^ 2 - Q.j ^ 2) +
      (q.k ^ 2 - Q.k ^ 2) := by
    rw [← hQ]; unfold quatNormSq; ring
  rw [e]
  have s1 := abs_add_le ((q.w ^ 2 - Q.w ^ 2) + (q.i ^ 2 - Q.i ^ 2) + (q.j ^ 2 - Q.j ^ 2))
    (q.k ^ 2 - Q.k ^ 2)
  have s2 := abs_add_le ((q.w ^ 2 - Q.w ^ 2) + (q.i ^ 2 - Q.i ^ 2)) (q.j ^ 2 - Q.j ^ 2)
  have s3 := abs_add_le (q.w ^ 2 - Q.w ^ 2) (q.i ^ 2 - Q.i ^ 2)
  have t1 := sq w
  have t2 := sq i
  have t3 := sq j
  have t4 := sq k
  have t5 : (|Q.w| + |Q.i| + |Q.j| + |Q.k|) * η ≤ 2 * η := by gcongr
  linarith

theorem qnear_rotation {η : ℝ} {q : Quat R} {Q : Quat ℝ} (hQ : UnitQuat Q) (h : QNear fl η q Q)
    (hη : η ≤ 1 / 4) : (∀ a b, |(fl.quat q).toRotationMatrix a b - Q.toRotationMatrix a b| ≤ 9 * η) ∧
      |quatNormSq (fl.quat q) - 1| ≤ 5 * η :=
  ⟨quat_rotation_near hQ h.w h.i h.j h.k hη, quat_norm_near hQ h.w h.i h.j h.k hη⟩

theorem abs_le_abs_sq {x y : ℝ} (h : |x| ≤ y) : x * x ≤ y * y := by
  rw [← abs_mul_abs_self]
  exact mul_self_le_mul_self (abs_nonneg _) h

theorem qlen_bound {u s : ℝ} {q Q : Quat ℝ} (hQ : UnitQuat Q) (h : qlen (qdiff q Q) ≤ 350 * (u / s)) (hs : 0 < s)
    (hsu : 11000 * u ≤ s) : qlen q ≤ 1032 / 1000 ∧ qlen (qdiff q Q) * (qlen q + qlen Q) ≤ 712 * (u / s) ∧
      0 ≤ u / s := by
  have hb : u / s ≤ 1 / 11000 := by rw [div_le_iff₀ hs]; linarith
  have h0 := qlen_nonneg (qdiff q Q)
  have hb0 : 0 ≤ u / s := by linarith
  have h1 := qlen_le_add_diff q Q
  rw [qlen_unit hQ] at h1 ⊢
  have h2 : qlen q ≤ 1032 / 1000 := by linarith
  refine ⟨h2, ?_, hb0⟩
  have := mul_le_mul h (add_le_add_left h2 1) (by linarith [qlen_nonneg q]) (by linarith)
  linarith

/-- C76: the stored quaternion has norm one up to `712 u / s`. -/
theorem c76_unit (m : RoundingMore fl) (vw : RoundingView fl) (hbig : 4 ≤ m.big)
    (hω : fl.ω ≤ 1 / 4) {c l up : V3 R} (hr : ViewInRange fl c l up) {s : ℝ}
    (hs : s = sine (fl.vec l - fl.vec c) (fl.vec up)) (hs0 : 0 < s) (hsu : 11000 * fl.u ≤ s)
    (hf : QFinite fl (fromView nalgebra c l up).pose.rotation) :
    |quatNormSq (fl.quat (fromView nalgebra c l up).pose.rotation) - 1| ≤ 712 * fl.u / s := by
  have hu0 := fl.u_nonneg
  obtain ⟨Q, hQ, -, hn⟩ := view_quaternion m vw hbig hω hr hs hs0 hsu hf
  have h := normSq_dist (fl.quat (fromView nalgebra c l up).pose.rotation) Q
  rw [show quatNormSq Q = 1 from hQ] at h
  refine h.trans ((qlen_bound hQ hn hs0 hsu).2.1.trans (le_of_eq ?_))
  rw [mul_div_assoc]

/-- C76: every entry of `rotation()` is within `750 u / s` of that of the exact view. -/
theorem c76_rotation (m : RoundingMore fl) (vw : RoundingView fl) (hbig : 4 ≤ m.big)
    (hω : fl.ω ≤ 1 / 4) {c l up : V3 R} (hr : ViewInRange fl c l up) {s : ℝ}
    (hs : s = sine (fl.vec l - fl.vec c) (fl.vec up)) (hs0 : 0 < s) (hsu : 11000 * fl.u ≤ s)
    (hf : QFinite fl (fromView nalgebra c l up).pose.rotation) (a b : Fin 3)
    (hfe : fl.isFinite ((fromView nalgebra c l up).rotation a b)) :
    |fl.val ((fromView nalgebra c l up).rotation a b) -
      (fromView nalgebra (fl.vec c) (fl.vec l) (fl.vec up)).rotation a b| ≤ 750 * fl.u / s := by
  have hu0 := fl.u_nonneg
  have hω0 := fl.ω_nonneg
  obtain ⟨Q, hQ, hrot, hn⟩ := view_quaternion m vw hbig hω hr hs hs0 hsu hf
  have hs1 : s ≤ 1 := hs ▸ sine_le_one _ _
  have hus : fl.u ≤ fl.u / s := by rw [le_div_iff₀ hs0]; nlinarith
  have hb : fl.u / s ≤ 1 / 11000 := by rw [div_le_iff₀ hs0]; linarith
  obtain ⟨hql, hqd, -⟩ := qlen_bound hQ hn hs0 hsu
  rw [mul_div_assoc]
  set η := fl.u / s with hη
  have h1 := (rotation_entry_dist (fl.quat (fromView nalgebra c l up).pose.rotation) Q a b).trans hqd
  rw [hrot]
  set q := (fromView nalgebra c l up).pose.rotation with hq
  have e : (fromView nalgebra c l up).rotation = q.toRotationMatrix := rfl
  rw [e] at hfe ⊢
  obtain ⟨bw, bi, bj, bk⟩ := qlen_comp (fl.quat q)
  have h2 := ((QComp.of_val fl (q := q) (bw.trans hql) (bi.trans hql) (bj.trans hql) (bk.trans hql)).rotationMatrix
    a b hfe).2
  have h3 : (1 + fl.u) ^ 4 - 1 ≤ 41 / 10 * fl.u := by
    have : fl.u ≤ 1 / 11000 := by linarith
    have : fl.u ^ 2 ≤ fl.u * (1 / 11000) := by rw [sq]; gcongr
    have : fl.u ^ 3 ≤ fl.u ^ 2 * (1 / 11000) := by rw [pow_succ]; gcongr
    have : fl.u ^ 4 ≤ fl.u ^ 3 * (1 / 11000) := by rw [pow_succ]; gcongr
    nlinarith
  have h4 : ((1 + fl.u) ^ 4 - 1) * (4 * (1032 / 1000) ^ 2 + 6 * fl.ω) ≤ 41 / 10 * fl.u * 6 := by
    apply mul_le_mul h3 (by norm_num; linarith) (by positivity) (by linarith)
  have h5 := abs_add_le (fl.val (q.toRotationMatrix a b) - (fl.quat q).toRotationMatrix a b)
    ((fl.quat q).toRotationMatrix a b - Q.toRotationMatrix a b)
  rw [sub_add_sub_cancel] at h5
  linarith

/-- C76: `world_to_camera` of a camera built by `from_view` is within `3500 M u / s` of the exact view,
`M` bounding the coordinates of the point and of the camera centre. -/
theorem c76_world_to_camera (m : RoundingMore fl) (vw : RoundingView fl) (hbig : 4 ≤ m.big)
    (hω : fl.ω ≤ 1 / 4) {c l up : V3 R} (hr : ViewInRange fl c l up) {s : ℝ}
    (hs : s = sine (fl.vec l - fl.vec c) (fl.vec up)) (hs0 : 0 < s) (hsu : 11000 * fl.u ≤ s)
    (hf : QFinite fl (fromView nalgebra c l up).pose.rotation) {M : ℝ} (hM : 1 ≤ M)
    (hc : ∀ a, |fl.val (c a)| ≤ M) {n : ℕ} (w : Points WorldFrame R n) (i : Fin n)
    (hx : ∀ a, |fl.val (w.data i a)| ≤ M) (a : Fin 3)
    (hfe : fl.isFinite (((fromView nalgebra c l up).worldToCamera w).data i a)) :
    |fl.val (((fromView nalgebra c l up).worldToCamera w).data i a) -
      ((fromView nalgebra (fl.vec c) (fl.vec l) (fl.vec up)).worldToCamera
        ⟨fun i => fl.vec (w.data i)⟩).data i a| ≤ 3500 * M * fl.u / s := by
  have hu0 := fl.u_nonneg
  have hω0 := fl.ω_nonneg
  obtain ⟨Q, hQ, hrot, hn⟩ := view_quaternion m vw hbig hω hr hs hs0 hsu hf
  have hs1 : s ≤ 1 := hs ▸ sine_le_one _ _
  have hus : fl.u ≤ fl.u / s := by rw [le_div_iff₀ hs0]; nlinarith
  have hb : fl.u / s ≤ 1 / 11000 := by rw [div_le_iff₀ hs0]; linarith
  obtain ⟨hql, hqd, -⟩ := qlen_bound hQ hn hs0 hsu
  rw [mul_div_assoc]
  set η := fl.u / s with hη
  have hη0 : 0 ≤ η := div_nonneg hu0 hs0.le
  have hDU : (fl.vec l - fl.vec c) ⨯₃ fl.vec up ≠ 0 := by
    intro h
    rw [hs, sine, h, len_eq_zero.2 rfl, zero_div] at hs0
    exact lt_irrefl _ hs0
  obtain ⟨Q', hQ', hv, -⟩ := fromView_spec nalgebra_rot hDU
  set q := (fromView nalgebra c l up).pose.rotation with hq
  have e : fromView nalgebra c l up = fromRotationAndCamcenter q c := rfl
  rw [e] at hfe ⊢
  obtain ⟨bw, bi, bj, bk⟩ := qlen_comp (fl.quat q)
  have h2 := c47_world_to_camera fl q c (1032 / 1000) M (bw.trans hql) (bi.trans hql) (bj.trans hql) (bk.trans hql) hc w i
    hx a hfe
  -- exact transformation with the computed quaternion
  have h3 : |((fromRotationAndCamcenter (fl.quat q) (fl.vec c)).worldToCamera
        ⟨fun i => fl.vec (w.data i)⟩).data i a -
      ((fromView nalgebra (fl.vec c) (fl.vec l) (fl.vec up)).worldToCamera
        ⟨fun i => fl.vec (w.data i)⟩).data i a| ≤ 3190 * η * M := by
    rw [hv] at hrot ⊢
    have hrot' : Q'.toRotationMatrix = Q.toRotationMatrix := hrot
    have ev : ∀ p : Quat ℝ, ((fromRotationAndCamcenter p (fl.vec c)).worldToCamera
        (⟨fun i => fl.vec (w.data i)⟩ : Points WorldFrame ℝ n)).data i a =
        Mat.mulVec3 p.toRotationMatrix (fl.vec (w.data i)) a -
          (quatNormSq p - 1) * fl.vec (w.data i) a - Mat.mulVec3 p.toRotationMatrix (fl.vec c) a := by
      intro p
      rw [worldToCamera_data, toRotationMatrix_defect p (fl.vec (w.data i)), Pi.add_apply, Pi.smul_apply,
        smul_eq_mul, add_sub_cancel_right]
      exact (sub_eq_add_neg _ _).symm
    rw [ev, ev, hrot', show quatNormSq Q' - 1 = 0 from sub_eq_zero.2 hQ']
    have hM0 : 0 ≤ M := by linarith
    set y := fl.vec (w.data i) with hy
    have hmv : ∀ p : Mat 3 3 ℝ, Mat.mulVec3 p (y - fl.vec c) a = Mat.mulVec3 p y a - Mat.mulVec3 p (fl.vec c) a := by
      intro p; simp only [Mat.mulVec3, Pi.sub_apply]; ring
    have hyc : len (y - fl.vec c) ≤ 3465 / 1000 * M := by
      have e : ∀ b, |(y - fl.vec c) b| ≤ 2 * M := fun b => by
        have := (abs_sub (y b) (fl.vec c b)).trans (add_le_add (hx b) (hc b))
        rw [Pi.sub_apply]; linarith
      have sq := fun b => abs_le_abs_sq (e b)
      refine le_of_sq_le_sq ?_ (by linarith)
      rw [len_sq, dotProduct, Fin.sum_univ_three]
      have := sq 0
      have := sq 1
      have := sq 2
      nlinarith
    have m1 := rotation_dist (fl.quat q) Q (y - fl.vec c) a
    have m2 := mul_le_mul hqd hyc (len_nonneg _) (by positivity)
    have m3 : |(quatNormSq (fl.quat q) - 1) * y a| ≤ 712 * η * M := by
      have h := normSq_dist (fl.quat q) Q
      rw [show quatNormSq Q = 1 from hQ] at h
      rw [abs_mul]
      exact mul_le_mul (h.trans hqd) (hx a) (abs_nonneg _) (by positivity)
    have m4 := abs_le.1 m3
    have m5 := abs_le.1 (m1.trans m2)
    rw [hmv, hmv] at m5
    have : 0 ≤ η * M := by positivity
    rw [abs_le]
    constructor <;> linarith [m5.1, m5.2, m4.1, m4.2]
  have h4 : (1 + fl.u) ^ 8 - 1 ≤ 82 / 10 * fl.u := by
    have := pow_sub_one_le hu0 le_rfl 8 (by norm_num; linarith)
    norm_num at this; linarith
  have h5 : ((1 + fl.u) ^ 8 - 1) * ((24 * (1032 / 1000) ^ 2 + 1) * M + fl.ω * (18 * M + 15 * (1032 / 1000) + 6)) ≤
      82 / 10 * fl.u * (37 * M) := by
    refine mul_le_mul h4 ?_ (by positivity) (by linarith)
    have : fl.ω * (18 * M + 15 * (1032 / 1000) + 6) ≤ 1 / 4 * (18 * M + 15 * (1032 / 1000) + 6) := by gcongr
    linarith
  have h6 : fl.u * M ≤ η * M := by gcongr
  have h7 := abs_add_le (fl.val (((fromRotationAndCamcenter q c).worldToCamera w).data i a) -
      ((fromRotationAndCamcenter (fl.quat q) (fl.vec c)).worldToCamera
          ⟨fun i => fl.vec (w.data i)⟩).data i a)
      (((fromRotationAndCamcenter (fl.quat q) (fl.vec c)).worldToCamera
        ⟨fun i => fl.vec (w.data i)⟩).data i a -
      ((fromView nalgebra (fl.vec c) (fl.vec l) (fl.vec up)).worldToCamera
        ⟨fun i => fl.vec (w.data i)⟩).data i a)
  rw [sub_add_sub_cancel] at h7
  have h8 : 0 ≤ η * M := by positivity
  linarith

/-- C76 for 64-bit floats: if the view direction and the up vector enclose an angle between 30 and 150
degrees, `world_to_camera` of a camera built by `from_view` is within `8e-13 M` of the exact view. -/
theorem c76_f64 (m : RoundingMore fl) (vw : RoundingView fl) (hbig : 4 ≤ m.big)
    (hu : fl.u = 1 / 2 ^ 53) (hω : fl.ω ≤ 1 / 4) {c l up : V3 R} (hr : ViewInRange fl c l up)
    (hs : 1 / 2 ≤ sine (fl.vec l - fl.vec c) (fl.vec up))
    (hf : QFinite fl (fromView nalgebra c l up).pose.rotation) {M : ℝ} (hM : 1 ≤ M)
    (hc : ∀ a, |fl.val (c a)| ≤ M) {n : ℕ} (w : Points WorldFrame R n) (i : Fin n)
    (hx : ∀ a, |fl.val (w.data i a)| ≤ M) (a : Fin 3)
    (hfe : fl.isFinite (((fromView nalgebra c l up).worldToCamera w).data i a)) :
    |fl.val (((fromView nalgebra c l up).worldToCamera w).data i a) -
      ((fromView nalgebra (fl.vec c) (fl.vec l) (fl.vec up)).worldToCamera
        ⟨fun i => fl.vec (w.data i)⟩).data i a| ≤ 8 / 10 ^ 13 * M := by
  refine (c76_world_to_camera m vw hbig hω hr rfl (by linarith) (by rw [hu]; norm_num; linarith) hf hM hc w
    i hx a hfe).trans ?_
  rw [div_le_iff₀ (by linarith), hu]
  have : 8 / 10 ^ 13 * M * (1 / 2) ≤ 8 / 10 ^ 13 * M * sine (fl.vec l - fl.vec c) (fl.vec up) := by gcongr
  refine le_trans ?_ this
  norm_num
  linarith

end

namespace Fp64

theorem rnd_of_mul {x : ℝ} {k : ℤ} (h : x = k * ulp x) : rnd x = x := by
  have hu := (ulp_pos x).ne'
  unfold rnd
  have : x / ulp x = k := by rw [div_eq_iff hu]; exact h
  rw [this, round_intCast, ← h]

theorem rnd_two : rnd 2 = 2 := by
  refine rnd_of_mul (k := 2 ^ 52) ?_
  unfold ulp
  have : Int.log 2 |(2 : ℝ)| = 1 := by
    rw [abs_two]; exact_mod_cast Int.log_natCast (R := ℝ) 2 2
  rw [this]; norm_num

theorem rnd_three : rnd 3 = 3 := by
  refine rnd_of_mul (k := 3 * 2 ^ 51) ?_
  unfold ulp
  have : Int.log 2 |(3 : ℝ)| = 1 := by
    rw [abs_of_pos (by norm_num)]; exact_mod_cast Int.log_natCast (R := ℝ) 2 3
  rw [this]; norm_num

theorem rnd_four : rnd 4 = 4 := by
  refine rnd_of_mul (k := 2 ^ 52) ?_
  unfold ulp
  have : Int.log 2 |(4 : ℝ)| = 2 := by
    rw [abs_of_pos (by norm_num)]; exact_mod_cast Int.log_natCast (R := ℝ) 2 4
  rw [this]; norm_num

theorem half_pi_near : ∃ θ, (Scalar.pi / Scalar.lit 2 : Fp64) = some θ ∧
    |Real.pi / 2 - θ| ≤ 7 / 2 * 2⁻¹ ^ 53 := by
  have hpi : |Real.pi| ≤ 4 := by rw [abs_of_pos Real.pi_pos]; exact Real.pi_le_four
  have h1 : (Scalar.pi : Fp64) = some (rnd Real.pi) := fl_finite (by linarith)
  have h2 := rnd_err Real.pi
  rw [abs_of_pos Real.pi_pos] at h2
  have hpi' : Real.pi < 3.15 := Real.pi_lt_d2
  have h3 : |rnd Real.pi| ≤ 4 := by
    have := abs_add_le (rnd Real.pi - Real.pi) Real.pi
    rw [sub_add_cancel, abs_of_pos Real.pi_pos] at this
    norm_num at *
    linarith
  have h4 : |rnd Real.pi / 2| ≤ 2 := by rw [abs_div, abs_two]; linarith
  refine ⟨rnd (rnd Real.pi / 2), ?_, ?_⟩
  · rw [h1, show (Scalar.lit 2 : Fp64) = some 2 by simp [Scalar.lit], div_some, if_neg (by norm_num),
      if_neg (by norm_num), fl_finite (by linarith)]
  · have h5 := rnd_err (rnd Real.pi / 2)
    have h6 : |rnd Real.pi / 2| ≤ 1.58 := by
      have := abs_add_le (rnd Real.pi - Real.pi) Real.pi
      rw [sub_add_cancel, abs_of_pos Real.pi_pos] at this
      rw [abs_div, abs_two]
      norm_num at *
      linarith
    have h7 : (2⁻¹ : ℝ) ^ 53 * |rnd Real.pi / 2| ≤ 2⁻¹ ^ 53 * 1.58 := by gcongr
    have h8 : (2⁻¹ : ℝ) ^ 53 * Real.pi ≤ 2⁻¹ ^ 53 * 3.15 := by gcongr
    have a1 := abs_le.1 h2
    have a2 := abs_le.1 h5
    rw [abs_le]
    constructor <;> linarith [a1.1, a1.2, a2.1, a2.2]

/-- The laws used by `from_view` hold in 53-bit arithmetic. -/
theorem roundingView : RoundingView rounding := by
  obtain ⟨θ, hθ, hn⟩ := half_pi_near
  have hu : rounding.u = 2⁻¹ ^ 53 := rfl
  refine ⟨⟨trivial, by simp [Scalar.lit, rounding, val]⟩, ?_, ?_⟩
  · rw [hθ]
    have e : (Scalar.sin (some θ) : Fp64) = some (rnd (Real.sin θ)) :=
      fl_finite ((Real.abs_sin_le_one θ).trans (by norm_num))
    rw [e, hu]
    change |rnd (Real.sin θ) - 1| ≤ _
    have h1 := rnd_err (Real.sin θ)
    have h2 : (2⁻¹ : ℝ) ^ 53 * |Real.sin θ| ≤ 2⁻¹ ^ 53 * 1 := by gcongr; exact Real.abs_sin_le_one θ
    have h3 : 1 - (Real.pi / 2 - θ) ^ 2 / 2 ≤ Real.sin θ := by
      rw [← Real.cos_pi_div_two_sub]; exact Real.one_sub_sq_div_two_le_cos
    have h4 : (Real.pi / 2 - θ) ^ 2 ≤ (7 / 2 * 2⁻¹ ^ 53) ^ 2 := by
      rw [← sq_abs]; gcongr
    have h5 := Real.sin_le_one θ
    have a1 := abs_le.1 h1
    rw [abs_le]
    norm_num at *
    constructor <;> linarith [a1.1, a1.2]
  · rw [hθ]
    have e : (Scalar.cos (some θ) : Fp64) = some (rnd (Real.cos θ)) :=
      fl_finite ((Real.abs_cos_le_one θ).trans (by norm_num))
    rw [e, hu]
    change |rnd (Real.cos θ)| ≤ _
    have h1 := rnd_err (Real.cos θ)
    have h3 : |Real.cos θ| ≤ 7 / 2 * 2⁻¹ ^ 53 := by
      rw [← Real.sin_pi_div_two_sub]
      exact (Real.abs_sin_le_abs).trans hn
    have h2 : (2⁻¹ : ℝ) ^ 53 * |Real.cos θ| ≤ 2⁻¹ ^ 53 * (1 / 2) := by
      gcongr; refine h3.trans ?_; norm_num
    have h4 := abs_add_le (rnd (Real.cos θ) - Real.cos θ) (Real.cos θ)
    rw [sub_add_cancel] at h4
    linarith

end Fp64

/-- Non-vacuity of C76: in 53-bit arithmetic, a camera at the origin looking along the z axis with the y
axis up. -/
example : let c : V3 Fp64 := ![.some 0, .some 0, .some 0]
    let l : V3 Fp64 := ![.some 0, .some 0, .some 1]
    let up : V3 Fp64 := ![.some 0, .some 1, .some 0]
    ViewInRange Fp64.rounding c l up ∧
    sine (Fp64.rounding.vec l - Fp64.rounding.vec c) (Fp64.rounding.vec up) = 1 ∧
    QFinite Fp64.rounding (fromView nalgebra c l up).pose.rotation := by
  intro c l up
  have hsub : V3.sub l c = l := by
    funext a; fin_cases a <;> simp [V3.sub, l, c, Fp64.sub_some]
  have hsq : (Scalar.sqrt (.some 1) : Fp64) = .some 1 := by
    change (if (1 : ℝ) < 0 then Fp64.none else Fp64.fl (Real.sqrt 1)) = _
    rw [if_neg (by norm_num), Real.sqrt_one, Fp64.fl_one]
  have hn : V3.norm l = .some 1 := by
    simp [V3.norm, V3.normSq, l, Fp64.mul_some, Fp64.add_some, hsq]
  have hl : V3.normalize l = l := by
    unfold V3.normalize
    rw [hn]
    funext a; fin_cases a <;> simp [l, Fp64.div_some]
  have hx : V3.cross up l = ![.some 1, .some 0, .some 0] := by
    funext a; fin_cases a <;> simp [V3.cross, up, l, Fp64.mul_some, Fp64.sub_some]
  have hnx : V3.norm (![.some 1, .some 0, .some 0] : V3 Fp64) = .some 1 := by
    simp [V3.norm, V3.normSq, Fp64.mul_some, Fp64.add_some, hsq]
  have hxn : V3.normalize (![.some 1, .some 0, .some 0] : V3 Fp64) = ![.some 1, .some 0, .some 0] := by
    unfold V3.normalize
    rw [hnx]
    funext a; fin_cases a <;> simp [Fp64.div_some]
  have hy : V3.cross l ![.some 1, .some 0, .some 0] = up := by
    funext a; fin_cases a <;> simp [V3.cross, up, l, Fp64.mul_some, Fp64.sub_some]
  have vl : Fp64.rounding.vec l - Fp64.rounding.vec c = ![0, 0, 1] := by
    funext a; fin_cases a <;> simp [Rounding.vec, l, c, Fp64.rounding, Fp64.val]
  have vu : Fp64.rounding.vec up = ![0, 1, 0] := by
    funext a; fin_cases a <;> simp [Rounding.vec, up, Fp64.rounding, Fp64.val]
  have l1 : len ![0, 1, 0] = 1 := by simp [len, Fin.sum_univ_three]
  have hω : Fp64.rounding.ω = 0 := rfl
  have hs : sine (Fp64.rounding.vec l - Fp64.rounding.vec c) (Fp64.rounding.vec up) = 1 := by
    rw [vl, vu]
    unfold sine
    rw [len_ez, l1]
    have : (![0, 0, 1] : Vec) ⨯₃ ![0, 1, 0] = ![-1, 0, 0] := by
      rw [cross_apply]; simp
    rw [this]; simp [len, Fin.sum_univ_three]
  refine ⟨⟨?_, ?_, ?_, ?_, ?_, ?_⟩, hs, ?_⟩
  · rw [hsub, hn]; trivial
  · rw [hsub, hl, hn]; trivial
  · rw [hsub, hl, hl, hx, hnx]; trivial
  · rw [hω, MulZeroClass.mul_zero]; positivity
  · rw [hω]; exact len_nonneg _
  · rw [hω, MulZeroClass.mul_zero]; positivity
  · have e : (fromView nalgebra c l up).pose.rotation =
        (shepperd (faceTowardsMatrix l up)).inverse.mul (Quat.fromAxisAngle l (Scalar.pi : Fp64)) := by
      have : (fromView nalgebra c l up).pose.rotation =
        (shepperd (faceTowardsMatrix (V3.normalize (V3.sub l c)) up)).inverse.mul
          (Quat.fromAxisAngle (V3.normalize (V3.sub l c)) (Scalar.pi : Fp64)) := rfl
      rw [this, hsub, hl]
    have hM : faceTowardsMatrix l up = ![![.some 1, .some 0, .some 0], ![.some 0, .some 1, .some 0],
        ![.some 0, .some 0, .some 1]] := by
      unfold faceTowardsMatrix
      simp only [hl, hx, hxn, hy]
      simp [l, up]
    have hq : shepperd (faceTowardsMatrix l up) = ⟨.some 1, .some 0, .some 0, .some 0⟩ := by
      have f2 : Fp64.fl 2 = .some 2 := by rw [Fp64.fl_finite (by norm_num), Fp64.rnd_two]
      have f3 : Fp64.fl 3 = .some 3 := by rw [Fp64.fl_finite (by norm_num), Fp64.rnd_three]
      have f4 : Fp64.fl 4 = .some 4 := by rw [Fp64.fl_finite (by norm_num), Fp64.rnd_four]
      have hs4 : (Scalar.sqrt (.some 4) : Fp64) = .some 2 := by
        change (if (4 : ℝ) < 0 then Fp64.none else Fp64.fl (Real.sqrt 4)) = _
        rw [if_neg (by norm_num), show Real.sqrt 4 = 2 by rw [Real.sqrt_eq_iff_mul_self_eq] <;> norm_num, f2]
      have L1 : (Scalar.lit 1 : Fp64) = .some 1 := by simp [Scalar.lit]
      have L2 : (Scalar.lit 2 : Fp64) = .some 2 := by simp [Scalar.lit]
      have L4 : (Scalar.lit (1 / 4) : Fp64) = .some (1 / 4) := by simp [Scalar.lit]
      have s2 : (Fp64.some 1 : Fp64) + .some 1 = .some 2 := by
        rw [Fp64.add_some, if_neg one_ne_zero, if_neg one_ne_zero, one_add_one_eq_two, f2]
      have s3 : (Fp64.some 2 : Fp64) + .some 1 = .some 3 := by
        rw [Fp64.add_some, if_neg one_ne_zero, if_neg two_ne_zero, show (2 : ℝ) + 1 = 3 by norm_num, f3]
      have s4 : (Fp64.some 3 : Fp64) + .some 1 = .some 4 := by
        rw [Fp64.add_some, if_neg one_ne_zero, if_neg three_ne_zero, show (3 : ℝ) + 1 = 4 by norm_num, f4]
      have p4 : (Fp64.some 2 : Fp64) * .some 2 = .some 4 := by
        rw [Fp64.mul_some, if_neg (by norm_num), if_neg (by norm_num), if_neg (by norm_num),
          show (2 : ℝ) * 2 = 4 by norm_num, f4]
      have p1 : (Fp64.some (1 / 4) : Fp64) * .some 4 = .some 1 := by
        rw [Fp64.mul_some, if_neg (by norm_num), if_neg (by norm_num), if_neg (by norm_num),
          show (1 / 4 : ℝ) * 4 = 1 by norm_num, Fp64.fl_one]
      have z1 : (Fp64.some 0 : Fp64) - .some 0 = .some 0 := by rw [Fp64.sub_some, sub_zero, Fp64.fl_zero]
      have z2 : (Fp64.some 0 : Fp64) / .some 4 = .some 0 := by
        rw [Fp64.div_some, if_neg (by norm_num), if_neg (by norm_num), zero_div, Fp64.fl_zero]
      have lt3 : Scalar.lt (0 : Fp64) (.some 3) = true := by
        change decide ((0 : ℝ) < 3) = true
        norm_num
      rw [hM]
      unfold shepperd
      simp only [Matrix.cons_val, s2, s3, lt3, L1, s4, hs4, L2, p4, L4, p1, z1, z2, if_true]
    obtain ⟨θ, hθ, -⟩ := Fp64.half_pi_near
    have ec : (Scalar.cos (.some θ) : Fp64) = .some (Fp64.rnd (Real.cos θ)) :=
      Fp64.fl_finite ((Real.abs_cos_le_one θ).trans (by norm_num))
    have es : (Scalar.sin (.some θ) : Fp64) = .some (Fp64.rnd (Real.sin θ)) :=
      Fp64.fl_finite ((Real.abs_sin_le_one θ).trans (by norm_num))
    have bc : |Fp64.rnd (Real.cos θ)| ≤ 2 :=
      (Fp64.rnd_abs _).trans (by linarith [Real.abs_cos_le_one θ])
    have bs : |Fp64.rnd (Real.sin θ)| ≤ 2 :=
      (Fp64.rnd_abs _).trans (by linarith [Real.abs_sin_le_one θ])
    have neg0 : -(Fp64.some 0 : Fp64) = .some 0 := by
      change Fp64.some (-0) = _; rw [neg_zero]
    have z1 : (Fp64.some 0 : Fp64) - .some 0 = .some 0 := by rw [Fp64.sub_some, sub_zero, Fp64.fl_zero]
    have z2 : (Fp64.some 0 : Fp64) + .some 0 = .some 0 := by rw [Fp64.add_some, if_pos rfl]
    have m0 : ∀ x : ℝ, (Fp64.some 0 : Fp64) * .some x = .some 0 := fun x => by
      rw [Fp64.mul_some, if_pos (Or.inl rfl)]
    have m1 : ∀ x : ℝ, (Fp64.some 1 : Fp64) * .some x = .some x := fun x => by
      rw [Fp64.mul_some]
      split_ifs with h1 h2
      · rcases h1 with h1 | h1
        · exact absurd h1 one_ne_zero
        · rw [h1]
      · rfl
      all_goals exact absurd rfl h2
    have a0 : ∀ x : ℝ, (Fp64.some x : Fp64) + .some 0 = .some x := fun x => by
      rw [Fp64.add_some, if_pos rfl]
    have d0' : ∀ x : ℝ, |x| ≤ 20 → ∃ y, (Fp64.some x : Fp64) - .some 0 = .some y ∧ |y| ≤ 2 * |x| :=
      fun x hx => ⟨Fp64.rnd x, by rw [Fp64.sub_some, sub_zero, Fp64.fl_finite (by linarith)],
        Fp64.rnd_abs x⟩
    rw [e, hq]
    have l0 : l 0 = .some 0 := rfl
    have l1' : l 1 = .some 0 := rfl
    have l2 : l 2 = .some 1 := rfl
    unfold Quat.fromAxisAngle Quat.inverse
    simp only [l0, l1', l2, hθ, ec, es, neg0, m0, m1]
    set C := Fp64.rnd (Real.cos θ)
    set S := Fp64.rnd (Real.sin θ)
    refine ⟨?_, ?_, ?_, ?_⟩
    · change Fp64.Finite' (.some 1 * .some C - .some 0 * .some 0 - .some 0 * .some 0 - .some 0 * .some S)
      obtain ⟨y1, e1, b1⟩ := d0' C (by linarith)
      obtain ⟨y2, e2, b2⟩ := d0' y1 (by linarith)
      obtain ⟨y3, e3, -⟩ := d0' y2 (by linarith)
      simp only [m0, m1, e1, e2, e3]
      trivial
    · change Fp64.Finite' (.some 1 * .some 0 + .some 0 * .some C + .some 0 * .some S - .some 0 * .some 0)
      simp only [m0, m1, z1, z2]
      trivial
    · change Fp64.Finite' (.some 1 * .some 0 - .some 0 * .some S + .some 0 * .some C + .some 0 * .some 0)
      simp only [m0, m1, z1, z2]
      trivial
    · change Fp64.Finite' (.some 1 * .some S + .some 0 * .some 0 - .some 0 * .some 0 + .some 0 * .some C)
      obtain ⟨y1, e1, -⟩ := d0' S (by linarith)
      simp only [m0, m1, a0, e1]
      trivial

end CamGeom

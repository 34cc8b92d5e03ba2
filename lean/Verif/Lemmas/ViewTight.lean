import Verif.Lemmas.RoundingView
import Verif.Props.RoundingPose
import Verif.Lemmas.QuatDefect
import Verif.Lemmas.Quaternion
import Mathlib.Analysis.InnerProductSpace.PiL2

/-!
# Errors of `from_view` measured in Euclidean length

The errors of unit vectors, cross products and quaternion products do not grow if they are measured in length rather
than entry by entry.
-/

namespace CamGeom
open Spec Matrix Rounding

/-! ### Vectors -/

theorem len_mono {x y : Vec} (h : ∀ a, |x a| ≤ |y a|) : len x ≤ len y := by
  refine le_of_sq_le_sq ?_ (len_nonneg y)
  rw [len_sq, len_sq, dotProduct, dotProduct]
  refine Finset.sum_le_sum fun a _ => ?_
  rw [← abs_mul_abs_self (x a), ← abs_mul_abs_self (y a)]
  exact mul_le_mul (h a) (h a) (abs_nonneg _) (abs_nonneg _)

theorem len_neg' (x : Vec) : len (-x) = len x := by
  have : -x = (-1 : ℝ) • x := by simp
  rw [this, len_smul]; simp

theorem len_sub_rev (x y : Vec) : len (x - y) = len (y - x) := by
  rw [← len_neg', neg_sub]

theorem len_sub_le' (x y z : Vec) : len (x - z) ≤ len (x - y) + len (y - z) := by
  have := len_add_le (x - y) (y - z)
  rwa [sub_add_sub_cancel] at this

/-- Unit vectors are not farther apart than the vectors, in units of the geometric mean of the lengths. -/
theorem normalize_dist {v w : Vec} (hv : v ≠ 0) (hw : w ≠ 0) :
    len (V3.normalize v - V3.normalize w) ^ 2 * (len v * len w) ≤ len (v - w) ^ 2 := by
  have hvp := len_pos.2 hv
  have hwp := len_pos.2 hw
  have e1 := len_sq v
  have e2 := len_sq w
  rw [len_sq, len_sq, normalize_eq, normalize_eq]
  simp only [sub_dotProduct, dotProduct_sub, smul_dotProduct, dotProduct_smul, smul_eq_mul]
  rw [← e1, ← e2, dotProduct_comm w v]
  set a := len v
  set b := len w
  refine le_trans (le_of_eq ?_) (show 2 * (a * b) - 2 * (v ⬝ᵥ w) ≤ _ by nlinarith [sq_nonneg (a - b)])
  field_simp
  ring

theorem normalize_close {v w : Vec} {e : ℝ} (hw : w ≠ 0) (he0 : 0 ≤ e) (he : e ≤ 1 / 100)
    (h : len (v - w) ≤ e * len w) :
    99 / 100 * len w ≤ len v ∧ v ≠ 0 ∧ len (V3.normalize v - V3.normalize w) ≤ 101 / 100 * e := by
  have hwp := len_pos.2 hw
  have h1 : 99 / 100 * len w ≤ len v := by
    have h2 := len_sub_le' w v 0
    rw [sub_zero, sub_zero, len_sub_rev] at h2
    have : e * len w ≤ 1 / 100 * len w := by gcongr
    linarith
  have hv : v ≠ 0 := len_pos.1 (by linarith)
  refine ⟨h1, hv, le_of_sq_le_sq ?_ (by linarith)⟩
  have h3 := normalize_dist hv hw
  set x := len (V3.normalize v - V3.normalize w)
  have h4 : x ^ 2 * (99 / 100 * len w * len w) ≤ x ^ 2 * (len v * len w) := by gcongr
  have h5 : len (v - w) ^ 2 ≤ (e * len w) ^ 2 := by gcongr; exact len_nonneg _
  have h6 : x ^ 2 * (99 / 100) * len w ^ 2 ≤ e ^ 2 * len w ^ 2 := by
    have : (e * len w) ^ 2 = e ^ 2 * len w ^ 2 := by ring
    linarith
  have h7 := le_of_mul_le_mul_right h6 (by positivity)
  nlinarith [sq_nonneg e]

section rounded
variable {R : Type} [Scalar R] {fl : Rounding R}

theorem norm_tight (m : RoundingMore fl) (hu1 : fl.u ≤ 1 / 1000) (d : V3 R)
    (hd : 3 * fl.ω ≤ len (vvec fl d) ^ 2) (hd0 : vvec fl d ≠ 0) (hf : fl.isFinite (V3.norm d)) :
    |fl.val (V3.norm d) - len (vvec fl d)| ≤ 42 / 10 * fl.u * len (vvec fl d) := by
  have hu0 := fl.u_nonneg
  obtain ⟨h1, h2, h3⟩ := m.sqrt hf
  have h5 := normSq_near le_rfl (by linarith) d hd h1
  set s := V3.normSq d with hs
  set L := len (vvec fl d) with hL
  have hLp : 0 < L := len_pos.2 hd0
  set t := Real.sqrt (fl.val s) with ht
  have ht0 : 0 ≤ t := Real.sqrt_nonneg _
  have htt : t ^ 2 = fl.val s := Real.sq_sqrt h2
  have hLL : 0 < L ^ 2 := by positivity
  have htL : 99 / 100 * L ≤ t := by
    refine le_of_sq_le_sq ?_ ht0
    rw [htt]
    have := (abs_le.1 h5).1
    have h6 : 62 / 10 * fl.u * L ^ 2 ≤ 62 / 10 * (1 / 1000) * L ^ 2 := by gcongr
    nlinarith
  have h6 : |t - L| ≤ 312 / 100 * fl.u * L := by
    have h7 : |t - L| * (199 / 100 * L) ≤ 312 / 100 * fl.u * L * (199 / 100 * L) := by
      calc |t - L| * (199 / 100 * L) ≤ |t - L| * (t + L) := by gcongr; linarith
        _ = |t ^ 2 - L ^ 2| := by rw [← abs_of_pos (show 0 < t + L by linarith), ← abs_mul]; ring_nf
        _ ≤ 62 / 10 * fl.u * L ^ 2 := by rw [htt]; exact h5
        _ ≤ _ := by nlinarith [mul_nonneg hu0 hLL.le]
    exact le_of_mul_le_mul_right h7 (by linarith)
  have h7 : t ≤ 101 / 100 * L := by
    have : 312 / 100 * fl.u * L ≤ 312 / 100 * (1 / 1000) * L := by gcongr
    linarith [(abs_le.1 h6).2]
  have h8 : fl.u * t ≤ fl.u * (101 / 100 * L) := by gcongr
  have h9 := abs_add_le (fl.val (V3.norm d) - t) (t - L)
  rw [sub_add_sub_cancel] at h9
  have h10 : |fl.val (V3.norm d) - t| ≤ fl.u * t := h3
  have hul : 0 ≤ fl.u * L := mul_nonneg hu0 hLp.le
  linarith

/-- Rounding the entries of a vector. -/
theorem len_round {x y : Vec} (h : ∀ a, |x a - y a| ≤ fl.u * (|y a| + fl.ω)) :
    len (x - y) ≤ fl.u * (len y + 2 * fl.ω) := by
  have hu0 := fl.u_nonneg
  have hω0 := fl.ω_nonneg
  set A : Vec := fun a => |y a|
  set W : Vec := fun _ => fl.ω
  have h1 : len (x - y) ≤ len (fl.u • (A + W)) := len_mono fun a => by
    rw [Pi.smul_apply, Pi.add_apply, smul_eq_mul, abs_of_nonneg (mul_nonneg hu0 (add_nonneg (abs_nonneg _) hω0))]
    exact h a
  rw [len_smul, abs_of_nonneg hu0] at h1
  refine h1.trans (mul_le_mul_of_nonneg_left ((len_add_le A W).trans (add_le_add ?_ ?_)) hu0)
  · exact len_mono fun a => by simp [A]
  · exact len_le_entries fun a => by simp [W, abs_of_nonneg hω0]

/-- The computed unit vector. -/
theorem normalize_tight (m : RoundingMore fl) (hu1 : fl.u ≤ 1 / 1000) (hω : fl.ω ≤ 1 / 4) (d : V3 R)
    (hd : 3 * fl.ω ≤ len (vvec fl d) ^ 2) (hd0 : vvec fl d ≠ 0) (hfn : fl.isFinite (V3.norm d))
    (hf : ∀ a, fl.isFinite (V3.normalize d a)) :
    len (vvec fl (V3.normalize d) - V3.normalize (vvec fl d)) ≤ 59 / 10 * fl.u := by
  have hu0 := fl.u_nonneg
  have h3 := norm_tight m hu1 d hd hd0 hfn
  have hN0 : fl.val (V3.norm d) ≠ 0 := ((fl.div (hf 0)).2 hfn).1
  have h2 : ∀ a, |fl.val (V3.normalize d a) - fl.val (d a) / fl.val (V3.norm d)| ≤
      fl.u * (|fl.val (d a) / fl.val (V3.norm d)| + fl.ω) := fun a => ((fl.div (hf a)).2 hfn).2
  set D := vvec fl d with hD
  set L := len D with hL
  have hLp : 0 < L := len_pos.2 hd0
  set N := fl.val (V3.norm d) with hN
  have huL : 42 / 10 * fl.u * L ≤ 42 / 10 * (1 / 1000) * L := by gcongr
  have hNL : 995 / 1000 * L ≤ N := by linarith [(abs_le.1 h3).1]
  have hNp : 0 < N := by linarith
  set y : Vec := N⁻¹ • D with hy
  have hyl : len y = L / N := by rw [hy, len_smul, abs_of_pos (inv_pos.2 hNp), inv_mul_eq_div]
  have hyl1 : len y ≤ 101 / 100 := by rw [hyl, div_le_iff₀ hNp]; linarith
  have r1 : len (vvec fl (V3.normalize d) - y) ≤ fl.u * (len y + 2 * fl.ω) := by
    refine len_round fun a => ?_
    have e : y a = fl.val (d a) / N := by rw [hy, Pi.smul_apply, smul_eq_mul, inv_mul_eq_div]; rfl
    rw [e]
    exact h2 a
  have r2 : len (y - V3.normalize D) ≤ 43 / 10 * fl.u := by
    have e : y - V3.normalize D = ((L - N) / (N * L)) • D := by
      rw [hy, normalize_eq, ← sub_smul, ← hL]
      congr 1
      field_simp
    rw [e, len_smul, abs_div, abs_of_pos (mul_pos hNp hLp), div_mul_eq_mul_div, div_le_iff₀ (mul_pos hNp hLp),
      abs_sub_comm]
    calc |N - L| * L ≤ 42 / 10 * fl.u * L * L := by gcongr
      _ ≤ 43 / 10 * fl.u * (995 / 1000 * L * L) := by
        have : 0 ≤ fl.u * (L * L) := by positivity
        nlinarith
      _ ≤ 43 / 10 * fl.u * (N * L) := by gcongr
  have r3 : fl.u * (len y + 2 * fl.ω) ≤ fl.u * (151 / 100) := by gcongr; linarith
  have := len_sub_le' (vvec fl (V3.normalize d)) y (V3.normalize D)
  linarith

/-- The computed unit vector of a computed vector. -/
theorem normalize_tight' (m : RoundingMore fl) (hu1 : fl.u ≤ 1 / 1000) (hω : fl.ω ≤ 1 / 4) {d : V3 R} {D : Vec}
    {e : ℝ} (he0 : 0 ≤ e) (he : e ≤ 1 / 100) (hd : len (vvec fl d - D) ≤ e * len D) (hD : D ≠ 0)
    (hωD : 4 * fl.ω ≤ len D ^ 2) (hfn : fl.isFinite (V3.norm d)) (hf : ∀ a, fl.isFinite (V3.normalize d a)) :
    len (vvec fl (V3.normalize d) - V3.normalize D) ≤ 59 / 10 * fl.u + 101 / 100 * e := by
  obtain ⟨h1, h2, h3⟩ := normalize_close hD he0 he hd
  have hDp := len_pos.2 hD
  have h4 : 3 * fl.ω ≤ len (vvec fl d) ^ 2 := by
    have : (99 / 100 * len D) ^ 2 ≤ len (vvec fl d) ^ 2 := by gcongr
    nlinarith [fl.ω_nonneg]
  have h5 := normalize_tight m hu1 hω d h4 h2 hfn hf
  have := len_sub_le' (vvec fl (V3.normalize d)) (V3.normalize (vvec fl d)) (V3.normalize D)
  linarith

theorem two_products_le (a b : Vec) (i j : Fin 3) (h : i ≠ j) : |a i * b j| + |a j * b i| ≤ len a * len b := by
  have ha := len_sq a
  have hb := len_sq b
  simp only [dotProduct, Fin.sum_univ_three] at ha hb
  have key : ∀ {p q r s : ℝ}, p * p + q * q ≤ len a ^ 2 → r * r + s * s ≤ len b ^ 2 →
      |p * s| + |q * r| ≤ len a * len b := by
    intro p q r s h1 h2
    refine le_of_sq_le_sq ?_ (mul_nonneg (len_nonneg _) (len_nonneg _))
    rw [mul_pow]
    have h3 : (p * p + q * q) * (r * r + s * s) ≤ len a ^ 2 * len b ^ 2 :=
      mul_le_mul h1 h2 (add_nonneg (mul_self_nonneg _) (mul_self_nonneg _)) (sq_nonneg _)
    refine le_trans ?_ h3
    rw [abs_mul, abs_mul, ← abs_mul_abs_self p, ← abs_mul_abs_self q, ← abs_mul_abs_self r, ← abs_mul_abs_self s]
    nlinarith [sq_nonneg (|p| * |r| - |q| * |s|)]
  have n := fun (v : Vec) i => mul_self_nonneg (v i)
  fin_cases i <;> fin_cases j <;> first | exact absurd rfl h | skip
  all_goals
    refine key ?_ ?_ <;> simp only [Fin.zero_eta, Fin.mk_one, Fin.reduceFinMk] <;>
      linarith [n a 0, n a 1, n a 2, n b 0, n b 1, n b 2]

/-- The computed cross product. -/
theorem cross_tight (hu1 : fl.u ≤ 1 / 1000) {a b : V3 R} (hf : ∀ i, fl.isFinite (V3.cross a b i)) :
    len (vvec fl (V3.cross a b) - vvec fl a ⨯₃ vvec fl b) ≤
      402 / 100 * fl.u * (len (vvec fl a) * len (vvec fl b) + 2 * fl.ω) := by
  have hu0 := fl.u_nonneg
  have hω0 := fl.ω_nonneg
  set A := vvec fl a with hA
  set B := vvec fl b with hB
  have hu2 : (1 + fl.u) ^ 2 - 1 ≤ 201 / 100 * fl.u := by nlinarith
  have hu3 : 0 ≤ (1 + fl.u) ^ 2 - 1 := by nlinarith
  have key : ∀ i j, i ≠ j → fl.isFinite (a i * b j - a j * b i) →
      |fl.val (a i * b j - a j * b i) - (A i * B j - A j * B i)| ≤ 201 / 100 * fl.u * (len A * len B + 2 * fl.ω) := by
    intro i j hij h
    have hc := (((Comp.exact fl (a i)).mul (Comp.exact fl (b j))).sub ((Comp.exact fl (a j)).mul (Comp.exact fl (b i)))) h
    refine (hc.2).trans ?_
    have h1 := two_products_le A B i j hij
    rw [abs_mul, abs_mul] at h1
    have h2 : |fl.val (a i)| * |fl.val (b j)| + fl.ω + (|fl.val (a j)| * |fl.val (b i)| + fl.ω) ≤
        len A * len B + 2 * fl.ω := by
      have : |A i| * |B j| + |A j| * |B i| = |fl.val (a i)| * |fl.val (b j)| + |fl.val (a j)| * |fl.val (b i)| := rfl
      linarith
    exact mul_le_mul hu2 h2 (by positivity) (by linarith)
  have h : ∀ i, |(vvec fl (V3.cross a b) - A ⨯₃ B) i| ≤ 201 / 100 * fl.u * (len A * len B + 2 * fl.ω) := by
    intro i
    rw [cross_apply]
    fin_cases i
    · exact key 1 2 (by decide) (hf 0)
    · exact key 2 0 (by decide) (hf 1)
    · exact key 0 1 (by decide) (hf 2)
  exact (len_le_entries h).trans (le_of_eq (by ring))

end rounded

/-! ### Quaternions -/

/-- Length of a quaternion. -/
noncomputable def qlen (q : Quat ℝ) : ℝ := Real.sqrt (quatNormSq q)

/-- Difference of quaternions. -/
def qdiff (a b : Quat ℝ) : Quat ℝ := ⟨a.w - b.w, a.i - b.i, a.j - b.j, a.k - b.k⟩

theorem quatNormSq_nonneg (q : Quat ℝ) : 0 ≤ quatNormSq q := by unfold quatNormSq; positivity

theorem qlen_nonneg (q : Quat ℝ) : 0 ≤ qlen q := Real.sqrt_nonneg _

theorem qlen_sq (q : Quat ℝ) : qlen q ^ 2 = quatNormSq q := Real.sq_sqrt (quatNormSq_nonneg q)

theorem qlen_unit {q : Quat ℝ} (h : UnitQuat q) : qlen q = 1 := by
  have : quatNormSq q = 1 := h
  rw [qlen, this, Real.sqrt_one]

theorem qlen_eq_norm (q : Quat ℝ) : qlen q = ‖!₂[q.w, q.i, q.j, q.k]‖ := by
  rw [EuclideanSpace.norm_eq, qlen, Fin.sum_univ_four]
  simp [quatNormSq]

theorem qlen_triangle (a b c : Quat ℝ) : qlen (qdiff a c) ≤ qlen (qdiff a b) + qlen (qdiff b c) := by
  rw [qlen_eq_norm, qlen_eq_norm, qlen_eq_norm]
  refine le_trans (le_of_eq ?_) (norm_add_le _ _)
  congr 1
  ext i
  fin_cases i <;> simp [qdiff]

theorem qlen_mul (a b : Quat ℝ) : qlen (a.mul b) = qlen a * qlen b := by
  unfold qlen
  rw [← Real.sqrt_mul (quatNormSq_nonneg a)]
  congr 1
  simp only [quatNormSq, Quat.mul]
  ring

theorem qlen_inverse (a : Quat ℝ) : qlen a.inverse = qlen a := by
  simp [qlen, quatNormSq, Quat.inverse]

theorem qlen_comp (q : Quat ℝ) : |q.w| ≤ qlen q ∧ |q.i| ≤ qlen q ∧ |q.j| ≤ qlen q ∧ |q.k| ≤ qlen q := by
  have h := qlen_sq q
  have h0 := qlen_nonneg q
  unfold quatNormSq at h
  refine ⟨?_, ?_, ?_, ?_⟩ <;> refine abs_le_of_sq_le_sq ?_ h0 <;>
    nlinarith [sq_nonneg q.w, sq_nonneg q.i, sq_nonneg q.j, sq_nonneg q.k]

theorem qlen_vector (q : Quat ℝ) : len q.vector ≤ qlen q := by
  refine le_of_sq_le_sq ?_ (qlen_nonneg q)
  rw [qlen_sq, len_sq, dotProduct, Fin.sum_univ_three]
  simp [Quat.vector, quatNormSq]
  nlinarith [sq_nonneg q.w]

theorem qlen_le_entries {q : Quat ℝ} {e : ℝ} (w : |q.w| ≤ e) (i : |q.i| ≤ e) (j : |q.j| ≤ e) (k : |q.k| ≤ e) :
    qlen q ≤ 2 * e := by
  have he : 0 ≤ e := (abs_nonneg _).trans w
  refine le_of_sq_le_sq ?_ (by linarith)
  rw [qlen_sq, quatNormSq]
  have sq : ∀ {x : ℝ}, |x| ≤ e → x ^ 2 ≤ e ^ 2 := fun h => sq_le_sq' (abs_le.1 h).1 (abs_le.1 h).2
  linarith [sq w, sq i, sq j, sq k]

/-- A scalar and a vector part. -/
theorem qlen_le_parts (q : Quat ℝ) : qlen q ≤ |q.w| + len q.vector := by
  refine le_of_sq_le_sq ?_ (add_nonneg (abs_nonneg _) (len_nonneg _))
  have h : len q.vector ^ 2 = q.i ^ 2 + q.j ^ 2 + q.k ^ 2 := by
    rw [len_sq, dotProduct, Fin.sum_univ_three]
    simp [Quat.vector]
    ring
  rw [qlen_sq, quatNormSq, add_sq, sq_abs, h]
  have := mul_nonneg (mul_nonneg zero_le_two (abs_nonneg q.w)) (len_nonneg q.vector)
  linarith

theorem qlen_diff_mul (a b A B : Quat ℝ) :
    qlen (qdiff (a.mul b) (A.mul B)) ≤ qlen (qdiff a A) * qlen b + qlen A * qlen (qdiff b B) := by
  refine (qlen_triangle _ (A.mul b) _).trans (le_of_eq ?_)
  rw [← qlen_mul, ← qlen_mul]
  congr 2 <;> simp only [qdiff, Quat.mul] <;> ext <;> simp only <;> ring

theorem qlen_le_add_diff (a b : Quat ℝ) : qlen a ≤ qlen b + qlen (qdiff a b) := by
  have h := qlen_triangle a b ⟨0, 0, 0, 0⟩
  simp only [qdiff, sub_zero] at h
  simp only [qdiff]
  linarith

theorem qlen_diff_inverse (a b : Quat ℝ) : qlen (qdiff a.inverse b.inverse) = qlen (qdiff a b) := by
  simp only [qlen, qdiff, quatNormSq, Quat.inverse]
  congr 1
  ring

/-- `a v b⁻¹` -/
noncomputable def sandwich (a b : Quat ℝ) (v : Vec) : Quat ℝ := (a.mul ⟨0, v 0, v 1, v 2⟩).mul b.inverse

theorem qlen_sandwich (a b : Quat ℝ) (v : Vec) : qlen (sandwich a b v) = qlen a * len v * qlen b := by
  rw [sandwich, qlen_mul, qlen_mul, qlen_inverse]
  congr 2
  rw [qlen, len_eq, dotProduct, Fin.sum_univ_three, quatNormSq]
  congr 1
  simp
  ring

theorem sandwich_vector (q : Quat ℝ) (v : Vec) (a : Fin 3) :
    (sandwich q q v).vector a = Mat.mulVec3 q.toRotationMatrix v a := by
  fin_cases a <;> simp [sandwich, Quat.vector, Quat.mul, Quat.inverse, Mat.mulVec3, Quat.toRotationMatrix] <;> ring

theorem qlen_sandwich_diff (q Q : Quat ℝ) (v : Vec) : qlen (qdiff (sandwich q q v) (sandwich Q Q v)) ≤
    qlen (qdiff q Q) * (qlen q + qlen Q) * len v := by
  refine (qlen_triangle _ (sandwich Q q v) _).trans (le_of_eq ?_)
  have e1 : qdiff (sandwich q q v) (sandwich Q q v) = sandwich (qdiff q Q) q v := by
    simp only [qdiff, sandwich, Quat.mul, Quat.inverse]; ext <;> simp only <;> ring
  have e2 : qdiff (sandwich Q q v) (sandwich Q Q v) = sandwich Q (qdiff q Q) v := by
    simp only [qdiff, sandwich, Quat.mul, Quat.inverse]; ext <;> simp only <;> ring
  rw [e1, e2, qlen_sandwich, qlen_sandwich]
  ring

/-- Nearby quaternions rotate a vector to nearby places. -/
theorem rotation_dist (q Q : Quat ℝ) (v : Vec) (a : Fin 3) :
    |Mat.mulVec3 q.toRotationMatrix v a - Mat.mulVec3 Q.toRotationMatrix v a| ≤
      qlen (qdiff q Q) * (qlen q + qlen Q) * len v := by
  rw [← sandwich_vector, ← sandwich_vector]
  refine le_trans ?_ (qlen_sandwich_diff q Q v)
  obtain ⟨-, hi, hj, hk⟩ := qlen_comp (qdiff (sandwich q q v) (sandwich Q Q v))
  fin_cases a
  · exact hi
  · exact hj
  · exact hk

theorem rotation_entry_dist (q Q : Quat ℝ) (a b : Fin 3) :
    |q.toRotationMatrix a b - Q.toRotationMatrix a b| ≤ qlen (qdiff q Q) * (qlen q + qlen Q) := by
  have h := rotation_dist q Q (Pi.single b 1) a
  have e : ∀ m : Mat 3 3 ℝ, Mat.mulVec3 m (Pi.single b 1) a = m a b := by
    intro m
    fin_cases b <;> simp [Mat.mulVec3]
  have hl : len (Pi.single b 1 : Vec) = 1 := by
    rw [len_eq]
    simp
  rwa [e, e, hl, _root_.mul_one] at h

theorem normSq_dist (q Q : Quat ℝ) : |quatNormSq q - quatNormSq Q| ≤ qlen (qdiff q Q) * (qlen q + qlen Q) := by
  rw [← qlen_sq, ← qlen_sq, sq_sub_sq, abs_mul, abs_of_nonneg (add_nonneg (qlen_nonneg q) (qlen_nonneg Q)),
    mul_comm]
  refine mul_le_mul_of_nonneg_right ?_ (add_nonneg (qlen_nonneg q) (qlen_nonneg Q))
  have h1 := qlen_le_add_diff q Q
  have h2 := qlen_le_add_diff Q q
  have h3 : qlen (qdiff Q q) = qlen (qdiff q Q) := by
    simp only [qlen, qdiff, quatNormSq]; congr 1; ring
  rw [h3] at h2
  exact abs_le.2 ⟨by linarith, by linarith⟩

theorem four_products_le (a b : Quat ℝ) {p q r s : ℝ} (h : p ^ 2 + q ^ 2 + r ^ 2 + s ^ 2 ≤ quatNormSq b) :
    |a.w| * |p| + |a.i| * |q| + |a.j| * |r| + |a.k| * |s| ≤ qlen a * qlen b := by
  refine le_of_sq_le_sq ?_ (mul_nonneg (qlen_nonneg _) (qlen_nonneg _))
  rw [mul_pow, qlen_sq, qlen_sq]
  refine le_trans ?_ (mul_le_mul_of_nonneg_left h (quatNormSq_nonneg a))
  unfold quatNormSq
  rw [← sq_abs a.w, ← sq_abs a.i, ← sq_abs a.j, ← sq_abs a.k, ← sq_abs p, ← sq_abs q, ← sq_abs r, ← sq_abs s]
  nlinarith [sq_nonneg (|a.w| * |q| - |a.i| * |p|), sq_nonneg (|a.w| * |r| - |a.j| * |p|),
    sq_nonneg (|a.w| * |s| - |a.k| * |p|), sq_nonneg (|a.i| * |r| - |a.j| * |q|),
    sq_nonneg (|a.i| * |s| - |a.k| * |q|), sq_nonneg (|a.j| * |s| - |a.k| * |r|)]

section rounded
variable {R : Type} [Scalar R] {fl : Rounding R}

theorem QNear.qlen {e : ℝ} {q : Quat R} {Q : Quat ℝ} (h : QNear fl e q Q) :
    qlen (qdiff (fl.quat q) Q) ≤ 2 * e := qlen_le_entries h.w h.i h.j h.k

/-- The computed product of quaternions. -/
theorem qmul_tight (hu1 : fl.u ≤ 1 / 1000) {a b : Quat R} (hf : QFinite fl (a.mul b)) :
    qlen (qdiff (fl.quat (a.mul b)) ((fl.quat a).mul (fl.quat b))) ≤
      81 / 10 * fl.u * (qlen (fl.quat a) * qlen (fl.quat b) + 4 * fl.ω) := by
  have hu0 := fl.u_nonneg
  have hω0 := fl.ω_nonneg
  set A := fl.quat a with hA
  set B := fl.quat b with hB
  have hu4 : (1 + fl.u) ^ 4 - 1 ≤ 405 / 100 * fl.u := by
    have : fl.u ^ 2 ≤ fl.u * (1 / 1000) := by rw [sq]; gcongr
    have : fl.u ^ 3 ≤ fl.u ^ 2 * (1 / 1000) := by rw [pow_succ]; gcongr
    have : fl.u ^ 4 ≤ fl.u ^ 3 * (1 / 1000) := by rw [pow_succ]; gcongr
    nlinarith
  have close : ∀ {x : R} {X C : ℝ} {p q r s : ℝ}, p ^ 2 + q ^ 2 + r ^ 2 + s ^ 2 ≤ quatNormSq B →
      |fl.val x - X| ≤ ((1 + fl.u) ^ 4 - 1) * C →
      C = |A.w| * |p| + |A.i| * |q| + |A.j| * |r| + |A.k| * |s| + 4 * fl.ω →
      |fl.val x - X| ≤ 405 / 100 * fl.u * (qlen A * qlen B + 4 * fl.ω) := by
    intro x X C p q r s h h1 hC
    refine h1.trans (mul_le_mul hu4 ?_ ?_ (by linarith))
    · rw [hC]; linarith [four_products_le A B h]
    · rw [hC]; positivity
  have pr : ∀ x y : R, fl.Comp 1 (|fl.val x| * |fl.val y| + fl.ω) (x * y) (fl.val x * fl.val y) :=
    fun x y => (Comp.exact fl x).mul (Comp.exact fl y)
  have hB2 : quatNormSq B = B.w ^ 2 + B.i ^ 2 + B.j ^ 2 + B.k ^ 2 := rfl
  refine (qlen_le_entries (e := 405 / 100 * fl.u * (qlen A * qlen B + 4 * fl.ω)) ?_ ?_ ?_ ?_).trans
    (le_of_eq (by ring))
  · exact close (p := B.w) (q := B.i) (r := B.j) (s := B.k) (by rw [hB2])
      (((((pr a.w b.w).sub (pr a.i b.i)).sub ((pr a.j b.j).mono (by norm_num) le_rfl)).sub
        ((pr a.k b.k).mono (by norm_num) le_rfl)) hf.w).2 (by simp only [hA, hB, Rounding.quat]; ring)
  · exact close (p := B.i) (q := B.w) (r := B.k) (s := B.j) (by rw [hB2]; linarith)
      (((((pr a.w b.i).add (pr a.i b.w)).add ((pr a.j b.k).mono (by norm_num) le_rfl)).sub
        ((pr a.k b.j).mono (by norm_num) le_rfl)) hf.i).2 (by simp only [hA, hB, Rounding.quat]; ring)
  · exact close (p := B.j) (q := B.k) (r := B.w) (s := B.i) (by rw [hB2]; linarith)
      (((((pr a.w b.j).sub (pr a.i b.k)).add ((pr a.j b.w).mono (by norm_num) le_rfl)).add
        ((pr a.k b.i).mono (by norm_num) le_rfl)) hf.j).2 (by simp only [hA, hB, Rounding.quat]; ring)
  · exact close (p := B.k) (q := B.j) (r := B.i) (s := B.w) (by rw [hB2]; linarith)
      (((((pr a.w b.k).add (pr a.i b.j)).sub ((pr a.j b.i).mono (by norm_num) le_rfl)).add
        ((pr a.k b.w).mono (by norm_num) le_rfl)) hf.k).2 (by simp only [hA, hB, Rounding.quat]; ring)

/-- The denominator of Shepperd's method. -/
theorem denom_tight (m : RoundingMore fl) {v : R} {T δ : ℝ} (hu : 40 * fl.u ≤ δ) (hδ : δ ≤ 1 / 200)
    (hω : fl.ω ≤ 1) (hv : |fl.val v - T| ≤ 33 / 10 * δ) (hT : 98 / 100 ≤ T) (hT4 : T ≤ 4)
    (hf : fl.isFinite (Scalar.sqrt v * Scalar.lit 2)) :
    |fl.val (Scalar.sqrt v * Scalar.lit 2) - Real.sqrt T * 2| ≤ 365 / 100 * δ := by
  have hu0 := fl.u_nonneg
  have hδ0 : 0 ≤ δ := by linarith
  obtain ⟨hs, -, h1⟩ := fl.mul hf
  obtain ⟨-, hv0, h2⟩ := m.sqrt hs
  rw [fl.lit_two.2] at h1
  set S := Real.sqrt T with hS
  have hS1 : 9895 / 10000 ≤ S := by
    rw [hS]; apply Real.le_sqrt_of_sq_le; norm_num; linarith
  have hS2 : S ≤ 2 := by
    rw [hS]; apply Real.sqrt_le_iff.2; constructor <;> norm_num; linarith
  have hSS : S ^ 2 = T := Real.sq_sqrt (by linarith)
  set t := Real.sqrt (fl.val v) with ht
  have ht0 : 0 ≤ t := Real.sqrt_nonneg _
  have htt : t ^ 2 = fl.val v := Real.sq_sqrt hv0
  have ht1 : 98 / 100 ≤ t := by
    rw [ht]; apply Real.le_sqrt_of_sq_le; norm_num; linarith [(abs_le.1 hv).1]
  have h3 : |t - S| ≤ 1677 / 1000 * δ := by
    have h4 : |t - S| * (1969 / 1000) ≤ 33 / 10 * δ := by
      calc |t - S| * (1969 / 1000) ≤ |t - S| * (t + S) := by gcongr; linarith [ht1]
        _ = |t ^ 2 - S ^ 2| := by
          rw [← abs_of_nonneg (show 0 ≤ t + S by linarith), ← abs_mul]; ring_nf
        _ ≤ _ := by rw [htt, hSS]; exact hv
    linarith
  have ht2 : t ≤ 21 / 10 := by linarith [(abs_le.1 h3).2]
  set r := fl.val (Scalar.sqrt v) with hr
  have h5 : |r - t| ≤ 21 / 400 * δ := by
    refine h2.trans ?_
    calc fl.u * t ≤ fl.u * (21 / 10) := by gcongr
      _ ≤ _ := by linarith
  have h6 : |r - S| ≤ 173 / 100 * δ := by
    have := abs_add_le (r - t) (t - S)
    rw [sub_add_sub_cancel] at this; linarith
  have h7 : |r * 2| ≤ 5 := by
    rw [abs_mul, abs_two]
    have := abs_add_le (r - S) S
    rw [sub_add_cancel, abs_of_nonneg (by linarith : (0 : ℝ) ≤ S)] at this
    linarith
  have h8 : fl.u * (|r * 2| + fl.ω) ≤ fl.u * 6 := by gcongr; linarith
  have h9 := abs_add_le (fl.val (Scalar.sqrt v * Scalar.lit 2) - r * 2) (r * 2 - S * 2)
  rw [sub_add_sub_cancel, ← sub_mul, abs_mul (r - S), abs_two] at h9
  linarith

/-- A component `n / denom`. -/
theorem quot_tight {d n : R} {D N δ : ℝ} (hu : 40 * fl.u ≤ δ) (hδ : δ ≤ 1 / 200)
    (hω : fl.ω ≤ 1) (hd : |fl.val d - D| ≤ 365 / 100 * δ) (hD : 1979 / 1000 ≤ D)
    (hn : |fl.val n - N| ≤ 206 / 100 * δ) (hN : |N / D| ≤ 1) (hfd : fl.isFinite d)
    (hf : fl.isFinite (n / d)) : |fl.val (n / d) - N / D| ≤ 3 * δ := by
  have hu0 := fl.u_nonneg
  obtain ⟨hd0, h1⟩ := (fl.div hf).2 hfd
  have hdp : 196 / 100 ≤ fl.val d := by linarith [(abs_le.1 hd).1]
  have hdp' : 0 < fl.val d := by linarith
  have h2 : |fl.val n / fl.val d - N / D| ≤ 2915 / 1000 * δ := by
    have e : fl.val n / fl.val d - N / D =
        ((fl.val n - N) - N / D * (fl.val d - D)) / fl.val d := by
      have : D ≠ 0 := by linarith
      field_simp; ring
    rw [e, abs_div, abs_of_pos hdp', div_le_iff₀ hdp']
    have h3 : |(fl.val n - N) - N / D * (fl.val d - D)| ≤ 206 / 100 * δ + 1 * (365 / 100 * δ) := by
      refine (abs_sub _ _).trans (add_le_add hn ?_)
      rw [abs_mul]
      exact mul_le_mul hN hd (abs_nonneg _) zero_le_one
    have h4 : 2915 / 1000 * δ * (196 / 100) ≤ 2915 / 1000 * δ * fl.val d :=
      mul_le_mul_of_nonneg_left hdp (by linarith)
    linarith
  have h3 : |fl.val n / fl.val d| ≤ 102 / 100 := by
    have := abs_add_le (fl.val n / fl.val d - N / D) (N / D)
    rw [sub_add_cancel] at this; linarith
  have h4 : fl.u * (|fl.val n / fl.val d| + fl.ω) ≤ fl.u * (202 / 100) := by gcongr; linarith
  have h5 := abs_add_le (fl.val (n / d) - fl.val n / fl.val d) (fl.val n / fl.val d - N / D)
  rw [sub_add_sub_cancel] at h5
  linarith

/-- The component `denom / 4`. -/
theorem quarter_tight (hquarter : fl.QuarterExact) {d : R} {D δ : ℝ} (hu : 40 * fl.u ≤ δ) (hδ : δ ≤ 1 / 200)
    (hω : fl.ω ≤ 1) (hd : |fl.val d - D| ≤ 365 / 100 * δ) (hD0 : 0 ≤ D) (hD : D ≤ 4)
    (hf : fl.isFinite (Scalar.lit (1 / 4) * d)) :
    |fl.val (Scalar.lit (1 / 4) * d) - 1 / 4 * D| ≤ 3 * δ := by
  have hu0 := fl.u_nonneg
  have h := mul_near (fl := fl) (X := 1 / 4) (Y := D) (a := 0) (A := 1 / 4) (B := 4) hf
    (by rw [hquarter.2]; simp) hd (by rw [abs_of_pos (by norm_num)])
    (by rw [abs_of_nonneg hD0]; exact hD)
  refine h.trans ?_
  have : fl.u * ((1 / 4 + 0) * (4 + 365 / 100 * δ) + fl.ω) ≤ fl.u * 3 := by
    gcongr; linarith
  linarith

/-- The conversion of a matrix near a rotation matrix. -/
theorem shepperd_tight (m : RoundingMore fl) (hquarter : fl.QuarterExact) (hbig : 4 ≤ m.big) {M : Mat 3 3 R}
    {T : Mat 3 3 ℝ} (hT : IsRotation T) {δ : ℝ} (hM : ∀ a b, |fl.val (M a b) - T a b| ≤ δ)
    (hu : 40 * fl.u ≤ δ) (hδ : δ ≤ 1 / 200) (hω : fl.ω ≤ 1) (hf : QFinite fl (shepperd M)) :
    ∃ Q, UnitQuat Q ∧ Q.toRotationMatrix = T ∧ QNear fl (3 * δ) (shepperd M) Q := by
  have hu0 := fl.u_nonneg
  have hδ0 : 0 ≤ δ := by linarith
  have huδ : fl.u * δ ≤ fl.u * (1 / 200) := by gcongr
  have huu : fl.u * fl.u ≤ fl.u * (1 / 200) := by gcongr; linarith
  have hE := rot_entry hT
  have htr := rot_trace hT
  have one : |fl.val (Scalar.lit 1) - 1| ≤ 0 := by rw [fl.lit_one.2]; simp
  -- sums and differences of two entries
  have hadd : ∀ a b c d, fl.isFinite (M a b + M c d) →
      |fl.val (M a b + M c d) - (T a b + T c d)| ≤ 206 / 100 * δ := fun a b c d h => by
    have := add_near (A := 2) h (hM a b) (hM c d)
      ((abs_add_le _ _).trans (by linarith [hE a b, hE c d]))
    linarith
  have hsub : ∀ a b c d, fl.isFinite (M a b - M c d) →
      |fl.val (M a b - M c d) - (T a b - T c d)| ≤ 206 / 100 * δ := fun a b c d h => by
    have := sub_near (A := 2) h (hM a b) (hM c d)
      ((abs_sub _ _).trans (by linarith [hE a b, hE c d]))
    linarith
  -- one plus a diagonal entry minus the others
  have hv : ∀ a b c, fl.isFinite (Scalar.lit 1 + M a a - M b b - M c c) →
      |fl.val (Scalar.lit 1 + M a a - M b b - M c c) - (1 + T a a - T b b - T c c)| ≤
        33 / 10 * δ := fun a b c h => by
    have h1 := (fl.sub h).1
    have h2 := (fl.sub h1).1
    have e1 := abs_le.1 (hE a a)
    have e2 := abs_le.1 (hE b b)
    have e3 := abs_le.1 (hE c c)
    have n1 := add_near (A := 2) h2 one (hM a a) (abs_le.2 ⟨by linarith, by linarith⟩)
    have n1' : |fl.val (Scalar.lit 1 + M a a) - (1 + T a a)| ≤ δ + 3 * fl.u := by linarith
    have n2 := sub_near (A := 3) h1 n1' (hM b b) (abs_le.2 ⟨by linarith, by linarith⟩)
    have n2' : |fl.val (Scalar.lit 1 + M a a - M b b) - (1 + T a a - T b b)| ≤ 2 * δ + 7 * fl.u := by
      refine n2.trans ?_
      have : fl.u * (3 + (δ + 3 * fl.u) + δ) ≤ fl.u * 4 := by gcongr; linarith
      linarith
    have n3 := sub_near (A := 4) h n2' (hM c c) (abs_le.2 ⟨by linarith, by linarith⟩)
    refine n3.trans ?_
    have : fl.u * (4 + (2 * δ + 7 * fl.u) + δ) ≤ fl.u * 5 := by gcongr; linarith
    linarith
  have sqrt_lb : ∀ {t : ℝ}, 98 / 100 ≤ t → 1979 / 1000 ≤ Real.sqrt t * 2 := fun {t} h => by
    have : 9895 / 10000 ≤ Real.sqrt t := by apply Real.le_sqrt_of_sq_le; norm_num; linarith
    linarith
  have sqrt_ub : ∀ {t : ℝ}, t ≤ 4 → Real.sqrt t * 2 ≤ 4 := fun {t} h => by
    have : Real.sqrt t ≤ 2 := by apply Real.sqrt_le_iff.2; constructor <;> norm_num; linarith
    linarith
  have c := fun a => abs_le.1 (hE a a)
  unfold shepperd at hf ⊢
  dsimp only at hf ⊢
  by_cases h1 : Scalar.lt 0 (M 0 0 + M 1 1 + M 2 2) = true
  · rw [if_pos h1] at hf ⊢
    obtain ⟨f1, f2, f3, f4⟩ := hf
    dsimp only at f1 f2 f3 f4
    have fd := (fl.mul f1).2.1
    have fs := (m.sqrt (fl.mul fd).1).1
    have ft := (fl.add fs).1
    have ft2 := (fl.add ft).1
    have n1 := add_near (A := 2) ft2 (hM 0 0) (hM 1 1)
      (abs_le.2 ⟨by linarith [(c 0).1, (c 1).1], by linarith [(c 0).2, (c 1).2]⟩)
    have n1' : |fl.val (M 0 0 + M 1 1) - (T 0 0 + T 1 1)| ≤ 2 * δ + 3 * fl.u := by linarith
    have n2 := add_near (A := 3) ft n1' (hM 2 2)
      (abs_le.2 ⟨by linarith [(c 0).1, (c 1).1, (c 2).1], by linarith [(c 0).2, (c 1).2, (c 2).2]⟩)
    have n2' : |fl.val (M 0 0 + M 1 1 + M 2 2) - (T 0 0 + T 1 1 + T 2 2)| ≤ 3 * δ + 7 * fl.u := by
      refine n2.trans ?_
      have : fl.u * (3 + (2 * δ + 3 * fl.u) + δ) ≤ fl.u * 4 := by gcongr; linarith
      linarith
    have n3 := add_near (A := 4) fs n2' one
      (abs_le.2 ⟨by linarith, by linarith [(c 0).2, (c 1).2, (c 2).2]⟩)
    have n3' : |fl.val (M 0 0 + M 1 1 + M 2 2 + Scalar.lit 1) - (T 0 0 + T 1 1 + T 2 2 + 1)| ≤
        33 / 10 * δ := by
      refine n3.trans ?_
      have : fl.u * (4 + (3 * δ + 7 * fl.u) + 0) ≤ fl.u * 5 := by gcongr; linarith
      linarith
    have h1' := (m.lt_iff fl.zero.1 ft).1 h1
    rw [fl.zero.2] at h1'
    have hpos : 98 / 100 ≤ T 0 0 + T 1 1 + T 2 2 + 1 := by linarith [(abs_le.1 n2').2]
    have hle : T 0 0 + T 1 1 + T 2 2 + 1 ≤ 4 := by linarith [(c 0).2, (c 1).2, (c 2).2]
    have hd := denom_tight m hu hδ hω n3' hpos hle fd
    obtain ⟨hq, hqm⟩ := shepperd_w hT (by linarith)
    obtain ⟨-, b2, b3, b4⟩ := unitQuat_abs hq
    refine ⟨_, hq, hqm, ⟨?_, ?_, ?_, ?_⟩⟩
    · exact quarter_tight hquarter hu hδ hω hd (by linarith [sqrt_lb hpos]) (sqrt_ub hle) f1
    · exact quot_tight hu hδ hω hd (sqrt_lb hpos) (hsub _ _ _ _ (fl.div f2).1) b2 fd f2
    · exact quot_tight hu hδ hω hd (sqrt_lb hpos) (hsub _ _ _ _ (fl.div f3).1) b3 fd f3
    · exact quot_tight hu hδ hω hd (sqrt_lb hpos) (hsub _ _ _ _ (fl.div f4).1) b4 fd f4
  · rw [if_neg h1] at hf ⊢
    -- the trace is small
    have tr : (∀ a, fl.isFinite (M a a)) → T 0 0 + T 1 1 + T 2 2 ≤ 33 / 10 * δ := by
      intro hfin
      have v := fun a => abs_le.1 (hM a a)
      have ft2 : fl.isFinite (M 0 0 + M 1 1) := m.add_finite (hfin 0) (hfin 1)
        (le_trans (abs_le.2 ⟨by linarith [(v 0).1, (v 1).1, (c 0).1, (c 1).1],
          by linarith [(v 0).2, (v 1).2, (c 0).2, (c 1).2]⟩) hbig)
      have n1 := add_near (A := 2) ft2 (hM 0 0) (hM 1 1)
        (abs_le.2 ⟨by linarith [(c 0).1, (c 1).1], by linarith [(c 0).2, (c 1).2]⟩)
      have n1' : |fl.val (M 0 0 + M 1 1) - (T 0 0 + T 1 1)| ≤ 2 * δ + 3 * fl.u := by linarith
      have w := abs_le.1 n1'
      have ft : fl.isFinite (M 0 0 + M 1 1 + M 2 2) := m.add_finite ft2 (hfin 2)
        (le_trans (abs_le.2 ⟨by linarith [(v 2).1, (c 0).1, (c 1).1, (c 2).1, w.1],
          by linarith [(v 2).2, (c 0).2, (c 1).2, (c 2).2, w.2]⟩) hbig)
      have n2 := add_near (A := 3) ft n1' (hM 2 2)
        (abs_le.2 ⟨by linarith [(c 0).1, (c 1).1, (c 2).1], by linarith [(c 0).2, (c 1).2, (c 2).2]⟩)
      have n2' : |fl.val (M 0 0 + M 1 1 + M 2 2) - (T 0 0 + T 1 1 + T 2 2)| ≤ 3 * δ + 7 * fl.u := by
        refine n2.trans ?_
        have : fl.u * (3 + (2 * δ + 3 * fl.u) + δ) ≤ fl.u * 4 := by gcongr; linarith
        linarith
      have h1' : ¬ fl.val 0 < fl.val (M 0 0 + M 1 1 + M 2 2) := fun h => h1 ((m.lt_iff fl.zero.1 ft).2 h)
      rw [fl.zero.2] at h1'
      linarith [(abs_le.1 n2').1]
    have v := fun a => abs_le.1 (hM a a)
    by_cases h2 : (Scalar.lt (M 1 1) (M 0 0) && Scalar.lt (M 2 2) (M 0 0)) = true
    · rw [if_pos h2] at hf ⊢
      obtain ⟨f1, f2, f3, f4⟩ := hf
      dsimp only at f1 f2 f3 f4
      have fd := (fl.mul f2).2.1
      have fs := (m.sqrt (fl.mul fd).1).1
      have fs2 := (fl.sub fs).1
      have g0 := (fl.add (fl.sub fs2).1).2.1
      have g1 := (fl.sub fs2).2.1
      have g2 := (fl.sub fs).2.1
      have htr2 := tr (by intro a; fin_cases a; exacts [g0, g1, g2])
      rw [Bool.and_eq_true, m.lt_iff g1 g0, m.lt_iff g2 g0] at h2
      have hpos : 98 / 100 ≤ 1 + T 0 0 - T 1 1 - T 2 2 := by
        linarith [h2.1, h2.2, (v 0).1, (v 0).2, (v 1).1, (v 1).2, (v 2).1, (v 2).2]
      have hle : 1 + T 0 0 - T 1 1 - T 2 2 ≤ 4 := by linarith [(c 0).2, (c 1).1, (c 2).1]
      have hd := denom_tight m hu hδ hω (hv 0 1 2 fs) hpos hle fd
      obtain ⟨hq, hqm⟩ := shepperd_i hT (by linarith)
      obtain ⟨b1, -, b3, b4⟩ := unitQuat_abs hq
      refine ⟨_, hq, hqm, ⟨?_, ?_, ?_, ?_⟩⟩
      · exact quot_tight hu hδ hω hd (sqrt_lb hpos) (hsub _ _ _ _ (fl.div f1).1) b1 fd f1
      · exact quarter_tight hquarter hu hδ hω hd (by linarith [sqrt_lb hpos]) (sqrt_ub hle) f2
      · exact quot_tight hu hδ hω hd (sqrt_lb hpos) (hadd _ _ _ _ (fl.div f3).1) b3 fd f3
      · exact quot_tight hu hδ hω hd (sqrt_lb hpos) (hadd _ _ _ _ (fl.div f4).1) b4 fd f4
    · rw [if_neg h2] at hf ⊢
      by_cases h3 : Scalar.lt (M 2 2) (M 1 1) = true
      · rw [if_pos h3] at hf ⊢
        obtain ⟨f1, f2, f3, f4⟩ := hf
        dsimp only at f1 f2 f3 f4
        have fd := (fl.mul f3).2.1
        have fs := (m.sqrt (fl.mul fd).1).1
        have fs2 := (fl.sub fs).1
        have g1 := (fl.add (fl.sub fs2).1).2.1
        have g0 := (fl.sub fs2).2.1
        have g2 := (fl.sub fs).2.1
        have htr2 := tr (by intro a; fin_cases a; exacts [g0, g1, g2])
        rw [Bool.and_eq_true, m.lt_iff g1 g0, m.lt_iff g2 g0, not_and, not_lt] at h2
        rw [m.lt_iff g2 g1] at h3
        have h4 : fl.val (M 0 0) ≤ fl.val (M 1 1) := by
          by_contra hc
          have := h2 (not_le.1 hc)
          linarith
        have hpos : 98 / 100 ≤ 1 + T 1 1 - T 0 0 - T 2 2 := by
          linarith [(v 0).1, (v 0).2, (v 1).1, (v 1).2, (v 2).1, (v 2).2]
        have hle : 1 + T 1 1 - T 0 0 - T 2 2 ≤ 4 := by linarith [(c 1).2, (c 0).1, (c 2).1]
        have hd := denom_tight m hu hδ hω (hv 1 0 2 fs) hpos hle fd
        obtain ⟨hq, hqm⟩ := shepperd_j hT (by linarith)
        obtain ⟨b1, b2, -, b4⟩ := unitQuat_abs hq
        refine ⟨_, hq, hqm, ⟨?_, ?_, ?_, ?_⟩⟩
        · exact quot_tight hu hδ hω hd (sqrt_lb hpos) (hsub _ _ _ _ (fl.div f1).1) b1 fd f1
        · exact quot_tight hu hδ hω hd (sqrt_lb hpos) (hadd _ _ _ _ (fl.div f2).1) b2 fd f2
        · exact quarter_tight hquarter hu hδ hω hd (by linarith [sqrt_lb hpos]) (sqrt_ub hle) f3
        · exact quot_tight hu hδ hω hd (sqrt_lb hpos) (hadd _ _ _ _ (fl.div f4).1) b4 fd f4
      · rw [if_neg h3] at hf ⊢
        obtain ⟨f1, f2, f3, f4⟩ := hf
        dsimp only at f1 f2 f3 f4
        have fd := (fl.mul f4).2.1
        have fs := (m.sqrt (fl.mul fd).1).1
        have fs2 := (fl.sub fs).1
        have g2 := (fl.add (fl.sub fs2).1).2.1
        have g0 := (fl.sub fs2).2.1
        have g1 := (fl.sub fs).2.1
        have htr2 := tr (by intro a; fin_cases a; exacts [g0, g1, g2])
        rw [Bool.and_eq_true, m.lt_iff g1 g0, m.lt_iff g2 g0, not_and, not_lt] at h2
        rw [m.lt_iff g2 g1, not_lt] at h3
        have h4 : fl.val (M 0 0) ≤ fl.val (M 2 2) := by
          by_contra hc
          have := h2 (by linarith)
          linarith
        have hpos : 98 / 100 ≤ 1 + T 2 2 - T 0 0 - T 1 1 := by
          linarith [(v 0).1, (v 0).2, (v 1).1, (v 1).2, (v 2).1, (v 2).2]
        have hle : 1 + T 2 2 - T 0 0 - T 1 1 ≤ 4 := by linarith [(c 2).2, (c 0).1, (c 1).1]
        have hd := denom_tight m hu hδ hω (hv 2 0 1 fs) hpos hle fd
        obtain ⟨hq, hqm⟩ := shepperd_k hT (by linarith)
        obtain ⟨b1, b2, b3, -⟩ := unitQuat_abs hq
        refine ⟨_, hq, hqm, ⟨?_, ?_, ?_, ?_⟩⟩
        · exact quot_tight hu hδ hω hd (sqrt_lb hpos) (hsub _ _ _ _ (fl.div f1).1) b1 fd f1
        · exact quot_tight hu hδ hω hd (sqrt_lb hpos) (hadd _ _ _ _ (fl.div f2).1) b2 fd f2
        · exact quot_tight hu hδ hω hd (sqrt_lb hpos) (hadd _ _ _ _ (fl.div f3).1) b3 fd f3
        · exact quarter_tight hquarter hu hδ hω hd (by linarith [sqrt_lb hpos]) (sqrt_ub hle) f4

end rounded

end CamGeom

import Verif.Lemmas.AxisNear
import Verif.Lemmas.Svd3Spec

/-!
# Computed eigenvectors and an exactly orthonormal basis

The eigenvector iteration in floating point is compared with an exactly orthonormal basis `u, v, w` that is rotated
by exact rotations close to the computed ones.  The errors are measured in the fixed basis, where they add up.
-/

namespace CamGeom
namespace Svd3
open Matrix Householder

variable {R : Type} [Scalar R] {fl : Rounding R}

/-- Entry of the symmetric matrix with the given entries in the basis `u, v, w`. -/
def form (u v w : V3 ℝ) (d0 d1 d2 o0 o1 o2 : ℝ) (a b : Fin 3) : ℝ :=
  d0 * (u a * u b) + d1 * (v a * v b) + d2 * (w a * w b) + o0 * (u a * v b + v a * u b) +
    o1 * (v a * w b + w a * v b) + o2 * (u a * w b + w a * u b)

/-- The computed basis `q` is close to the exactly orthonormal one, in which `S` is close to the matrix with the given
entries. -/
structure Shadow (fl : Rounding R) (S : Matrix (Fin 3) (Fin 3) ℝ) (ε : ℝ) (q : Fin 3 → ℕ → R) (u v w : V3 ℝ)
    (d0 d1 d2 o0 o1 o2 : ℝ) : Prop where
  frame : Frame u v w
  fin : ∀ r c, c < 3 → fl.isFinite (q r c)
  basis : ∀ r b, |fl.val (q r 0) * u b + fl.val (q r 1) * v b + fl.val (q r 2) * w b -
    (if r = b then 1 else 0)| ≤ ε
  recon : ∀ a b, |form u v w d0 d1 d2 o0 o1 o2 a b - S a b| ≤ ε

theorem Frame.le_one {u v w : V3 ℝ} (h : Frame u v w) (i : Fin 3) : |u i| ≤ 1 ∧ |v i| ≤ 1 ∧ |w i| ≤ 1 := by
  have := h.columns i i
  rw [if_pos rfl] at this
  refine ⟨?_, ?_, ?_⟩ <;> rw [← sq_le_one_iff_abs_le_one] <;>
    nlinarith [mul_self_nonneg (u i), mul_self_nonneg (v i), mul_self_nonneg (w i)]

theorem sum_abs_le {u : V3 ℝ} (h : u ⬝ᵥ u = 1) : |u 0| + |u 1| + |u 2| ≤ 1733 / 1000 := by
  rw [dotProduct, Fin.sum_univ_three] at h
  have h0 := abs_mul_abs_self (u 0)
  have h1 := abs_mul_abs_self (u 1)
  have h2 := abs_mul_abs_self (u 2)
  nlinarith [sq_nonneg (|u 0| - |u 1|), sq_nonneg (|u 0| - |u 2|), sq_nonneg (|u 1| - |u 2|), abs_nonneg (u 0),
    abs_nonneg (u 1), abs_nonneg (u 2)]

theorem mul_le_of_one {x y δ : ℝ} (hx : |x| ≤ δ) (hy : |y| ≤ 1) : |x * y| ≤ δ := by
  rw [abs_mul]
  calc |x| * |y| ≤ δ * 1 := mul_le_mul hx hy (abs_nonneg _) ((abs_nonneg _).trans hx)
    _ = δ := mul_one δ

theorem mul_le_one' {x y : ℝ} (hx : |x| ≤ 1) (hy : |y| ≤ 1) : |x * y| ≤ 1 := mul_le_of_one hx hy

section Forms
variable {u v w : V3 ℝ} {d0 d1 d2 o0 o1 o2 c s : ℝ}

theorem form_perturb (h : Frame u v w) {D0 D1 D2 O0 O1 O2 δ : ℝ} (h0 : |D0 - d0| ≤ δ) (h1 : |D1 - d1| ≤ δ)
    (h2 : |D2 - d2| ≤ δ) (h3 : |O0 - o0| ≤ δ) (h4 : |O1 - o1| ≤ δ) (h5 : |O2 - o2| ≤ δ) (a b : Fin 3) :
    |form u v w D0 D1 D2 O0 O1 O2 a b - form u v w d0 d1 d2 o0 o1 o2 a b| ≤ 9 * δ := by
  have e : form u v w D0 D1 D2 O0 O1 O2 a b - form u v w d0 d1 d2 o0 o1 o2 a b =
      (D0 - d0) * (u a * u b) + (D1 - d1) * (v a * v b) + (D2 - d2) * (w a * w b) +
      ((O0 - o0) * (u a * v b) + (O0 - o0) * (v a * u b)) + ((O1 - o1) * (v a * w b) + (O1 - o1) * (w a * v b)) +
      ((O2 - o2) * (u a * w b) + (O2 - o2) * (w a * u b)) := by
    simp only [form]; ring
  obtain ⟨ua, va, wa⟩ := h.le_one a
  obtain ⟨ub, vb, wb⟩ := h.le_one b
  have k1 := abs_le.1 (mul_le_of_one h0 (mul_le_one' ua ub))
  have k2 := abs_le.1 (mul_le_of_one h1 (mul_le_one' va vb))
  have k3 := abs_le.1 (mul_le_of_one h2 (mul_le_one' wa wb))
  have k4 := abs_le.1 (mul_le_of_one h3 (mul_le_one' ua vb))
  have k5 := abs_le.1 (mul_le_of_one h3 (mul_le_one' va ub))
  have k6 := abs_le.1 (mul_le_of_one h4 (mul_le_one' va wb))
  have k7 := abs_le.1 (mul_le_of_one h4 (mul_le_one' wa vb))
  have k8 := abs_le.1 (mul_le_of_one h5 (mul_le_one' ua wb))
  have k9 := abs_le.1 (mul_le_of_one h5 (mul_le_one' wa ub))
  rw [e, abs_le]
  constructor <;> linarith [k1.1, k1.2, k2.1, k2.2, k3.1, k3.2, k4.1, k4.2, k5.1, k5.2, k6.1, k6.2, k7.1, k7.2, k8.1,
    k8.2, k9.1, k9.2]

theorem form_rot01 (hc : c * c + s * s = 1) (a b : Fin 3) :
    form (c • u + (-s) • v) (s • u + c • v) w (c * c * d0 + s * s * d1 - c * s * 2 * o0)
      (s * s * d0 + c * c * d1 + c * s * 2 * o0) d2 (c * s * (d0 - d1) + o0 * (c * c - s * s)) (c * o1 + s * o2)
      (c * o2 - s * o1) a b = form u v w d0 d1 d2 o0 o1 o2 a b := by
  simp only [form, Pi.add_apply, Pi.smul_apply, smul_eq_mul]
  have h2 : (c * c + s * s) * (c * c + s * s) = 1 := by rw [hc, one_mul]
  linear_combination (d0 * (u a * u b) + d1 * (v a * v b) + o0 * (u a * v b + v a * u b)) * h2 +
    (o1 * (v a * w b + w a * v b) + o2 * (u a * w b + w a * u b)) * hc

theorem form_rot12 (hc : c * c + s * s = 1) (a b : Fin 3) :
    form u (c • v + (-s) • w) (s • v + c • w) d0 (c * c * d1 + s * s * d2 - c * s * 2 * o1)
      (s * s * d1 + c * c * d2 + c * s * 2 * o1) (c * o0 - s * o2) (c * s * (d1 - d2) + o1 * (c * c - s * s))
      (c * o2 + s * o0) a b = form u v w d0 d1 d2 o0 o1 o2 a b := by
  simp only [form, Pi.add_apply, Pi.smul_apply, smul_eq_mul]
  have h2 : (c * c + s * s) * (c * c + s * s) = 1 := by rw [hc, one_mul]
  linear_combination (d1 * (v a * v b) + d2 * (w a * w b) + o1 * (v a * w b + w a * v b)) * h2 +
    (o0 * (u a * v b + v a * u b) + o2 * (u a * w b + w a * u b)) * hc

/-- A symmetric matrix in an orthonormal basis. -/
theorem form_bil (h : Frame u v w) {S : Matrix (Fin 3) (Fin 3) ℝ} (hS : S.transpose = S) (a b : Fin 3) :
    form u v w (bil S u u) (bil S v v) (bil S w w) (bil S u v) (bil S v w) (bil S u w) a b = S a b := by
  have key : ∀ x y : V3 ℝ, (x ⬝ᵥ u * u a + x ⬝ᵥ v * v a + x ⬝ᵥ w * w a) = x a := fun x _ => by
    have c0 := h.columns 0 a
    have c1 := h.columns 1 a
    have c2 := h.columns 2 a
    simp only [dotProduct, Fin.sum_univ_three]
    fin_cases a <;> simp at c0 c1 c2 ⊢ <;> linear_combination x 0 * c0 + x 1 * c1 + x 2 * c2
  have key' : ∀ x y : V3 ℝ, (x ⬝ᵥ u * u b + x ⬝ᵥ v * v b + x ⬝ᵥ w * w b) = x b := fun x _ => by
    have c0 := h.columns 0 b
    have c1 := h.columns 1 b
    have c2 := h.columns 2 b
    simp only [dotProduct, Fin.sum_univ_three]
    fin_cases b <;> simp at c0 c1 c2 ⊢ <;> linear_combination x 0 * c0 + x 1 * c1 + x 2 * c2
  -- columns
  have hb : ∀ x : V3 ℝ, bil S u x * u a + bil S v x * v a + bil S w x * w a = (S *ᵥ x) a := fun x => by
    have := key (S *ᵥ x) x
    simp only [bil]
    rw [dotProduct_comm u, dotProduct_comm v, dotProduct_comm w]
    exact this
  have hrow : (S *ᵥ u) a * u b + (S *ᵥ v) a * v b + (S *ᵥ w) a * w b = S a b := by
    have := key' (S a) u
    simpa [mulVec] using this
  have hu := hb u
  have hv := hb v
  have hw := hb w
  rw [bil_comm hS v u, bil_comm hS w u] at hu
  rw [bil_comm hS w v] at hv
  simp only [form]
  linear_combination hrow + u b * hu + v b * hv + w b * hw

theorem bil_form {S : Matrix (Fin 3) (Fin 3) ℝ} {ε : ℝ} {x y : V3 ℝ} (hx : x ⬝ᵥ x = 1) (hy : y ⬝ᵥ y = 1)
    (hr : ∀ a b, |form u v w d0 d1 d2 o0 o1 o2 a b - S a b| ≤ ε) :
    |bil (Matrix.of (form u v w d0 d1 d2 o0 o1 o2)) x y - bil S x y| ≤ 301 / 100 * ε := by
  have hε : 0 ≤ ε := (abs_nonneg _).trans (hr 0 0)
  set F := form u v w d0 d1 d2 o0 o1 o2 with hF
  have e : bil (Matrix.of F) x y - bil S x y =
      ((F 0 0 - S 0 0) * (x 0 * y 0) + (F 0 1 - S 0 1) * (x 0 * y 1) + (F 0 2 - S 0 2) * (x 0 * y 2)) +
      ((F 1 0 - S 1 0) * (x 1 * y 0) + (F 1 1 - S 1 1) * (x 1 * y 1) + (F 1 2 - S 1 2) * (x 1 * y 2)) +
      ((F 2 0 - S 2 0) * (x 2 * y 0) + (F 2 1 - S 2 1) * (x 2 * y 1) + (F 2 2 - S 2 2) * (x 2 * y 2)) := by
    simp only [bil, dotProduct, mulVec, Fin.sum_univ_three, Matrix.of_apply]; ring
  have t : ∀ a b, |(F a b - S a b) * (x a * y b)| ≤ ε * (|x a| * |y b|) := fun a b => by
    rw [abs_mul, abs_mul]; gcongr; exact hr a b
  have sx := sum_abs_le hx
  have sy := sum_abs_le hy
  have x0 := abs_nonneg (x 0)
  have x1 := abs_nonneg (x 1)
  have x2 := abs_nonneg (x 2)
  have y0 := abs_nonneg (y 0)
  have y1 := abs_nonneg (y 1)
  have y2 := abs_nonneg (y 2)
  have P : (|x 0| + |x 1| + |x 2|) * (|y 0| + |y 1| + |y 2|) ≤ 301 / 100 :=
    (mul_le_mul sx sy (by positivity) (by norm_num)).trans (by norm_num)
  have P' := mul_le_mul_of_nonneg_left P hε
  rw [e]
  refine (abs_add_three _ _ _).trans ?_
  have r0 := abs_add_three ((F 0 0 - S 0 0) * (x 0 * y 0)) ((F 0 1 - S 0 1) * (x 0 * y 1)) ((F 0 2 - S 0 2) * (x 0 * y 2))
  have r1 := abs_add_three ((F 1 0 - S 1 0) * (x 1 * y 0)) ((F 1 1 - S 1 1) * (x 1 * y 1)) ((F 1 2 - S 1 2) * (x 1 * y 2))
  have r2 := abs_add_three ((F 2 0 - S 2 0) * (x 2 * y 0)) ((F 2 1 - S 2 1) * (x 2 * y 1)) ((F 2 2 - S 2 2) * (x 2 * y 2))
  linarith [t 0 0, t 0 1, t 0 2, t 1 0, t 1 1, t 1 2, t 2 0, t 2 1, t 2 2]

theorem bil_form_self (h : Frame u v w) :
    bil (Matrix.of (form u v w d0 d1 d2 o0 o1 o2)) u u = d0 ∧ bil (Matrix.of (form u v w d0 d1 d2 o0 o1 o2)) v v = d1 ∧
    bil (Matrix.of (form u v w d0 d1 d2 o0 o1 o2)) w w = d2 ∧ bil (Matrix.of (form u v w d0 d1 d2 o0 o1 o2)) u v = o0 ∧
    bil (Matrix.of (form u v w d0 d1 d2 o0 o1 o2)) v w = o1 ∧ bil (Matrix.of (form u v w d0 d1 d2 o0 o1 o2)) u w = o2 := by
  have key : ∀ x y : V3 ℝ, bil (Matrix.of (form u v w d0 d1 d2 o0 o1 o2)) x y =
      d0 * ((x ⬝ᵥ u) * (y ⬝ᵥ u)) + d1 * ((x ⬝ᵥ v) * (y ⬝ᵥ v)) + d2 * ((x ⬝ᵥ w) * (y ⬝ᵥ w)) +
      o0 * ((x ⬝ᵥ u) * (y ⬝ᵥ v) + (x ⬝ᵥ v) * (y ⬝ᵥ u)) + o1 * ((x ⬝ᵥ v) * (y ⬝ᵥ w) + (x ⬝ᵥ w) * (y ⬝ᵥ v)) +
      o2 * ((x ⬝ᵥ u) * (y ⬝ᵥ w) + (x ⬝ᵥ w) * (y ⬝ᵥ u)) := fun x y => by
    simp only [bil, form, dotProduct, mulVec, Fin.sum_univ_three, Matrix.of_apply]; ring
  obtain ⟨h1, h2, h3, h4, h5, h6⟩ := h
  have h4' : v ⬝ᵥ u = 0 := by rw [dotProduct_comm]; exact h4
  have h5' : w ⬝ᵥ u = 0 := by rw [dotProduct_comm]; exact h5
  have h6' : w ⬝ᵥ v = 0 := by rw [dotProduct_comm]; exact h6
  simp only [key, h1, h2, h3, h4, h5, h6, h4', h5', h6']
  refine ⟨by ring, by ring, by ring, by ring, by ring, by ring⟩

end Forms

namespace Shadow
variable {S : Matrix (Fin 3) (Fin 3) ℝ} {ε : ℝ} {q : Fin 3 → ℕ → R} {u v w : V3 ℝ} {d0 d1 d2 o0 o1 o2 : ℝ}

theorem nonneg (h : Shadow fl S ε q u v w d0 d1 d2 o0 o1 o2) : 0 ≤ ε := (abs_nonneg _).trans (h.recon 0 0)

theorem mono (h : Shadow fl S ε q u v w d0 d1 d2 o0 o1 o2) {ε' : ℝ} (he : ε ≤ ε') :
    Shadow fl S ε' q u v w d0 d1 d2 o0 o1 o2 :=
  ⟨h.frame, h.fin, fun r b => (h.basis r b).trans he, fun a b => (h.recon a b).trans he⟩

/-- The entries of the matrix in the exact basis. -/
theorem bils (h : Shadow fl S ε q u v w d0 d1 d2 o0 o1 o2) :
    |bil S u u - d0| ≤ 301 / 100 * ε ∧ |bil S v v - d1| ≤ 301 / 100 * ε ∧ |bil S w w - d2| ≤ 301 / 100 * ε ∧
    |bil S u v - o0| ≤ 301 / 100 * ε ∧ |bil S v w - o1| ≤ 301 / 100 * ε ∧ |bil S u w - o2| ≤ 301 / 100 * ε := by
  obtain ⟨b1, b2, b3, b4, b5, b6⟩ := bil_form_self (d0 := d0) (d1 := d1) (d2 := d2) (o0 := o0) (o1 := o1) (o2 := o2) h.frame
  have k := fun {x y : V3 ℝ} (hx : x ⬝ᵥ x = 1) (hy : y ⬝ᵥ y = 1) => bil_form hx hy h.recon
  have f := h.frame
  refine ⟨?_, ?_, ?_, ?_, ?_, ?_⟩ <;> rw [abs_sub_comm]
  · rw [← b1]; exact k f.uu f.uu
  · rw [← b2]; exact k f.vv f.vv
  · rw [← b3]; exact k f.ww f.ww
  · rw [← b4]; exact k f.uu f.vv
  · rw [← b5]; exact k f.vv f.ww
  · rw [← b6]; exact k f.uu f.ww

/-- The computed basis is close to the exact one. -/
theorem near (h : Shadow fl S ε q u v w d0 d1 d2 o0 o1 o2) (r : Fin 3) :
    |fl.val (q r 0) - u r| ≤ 1733 / 1000 * ε ∧ |fl.val (q r 1) - v r| ≤ 1733 / 1000 * ε ∧
    |fl.val (q r 2) - w r| ≤ 1733 / 1000 * ε := by
  have f := h.frame
  have hε := h.nonneg
  set q0 := fl.val (q r 0)
  set q1 := fl.val (q r 1)
  set q2 := fl.val (q r 2)
  set E : V3 ℝ := fun b => q0 * u b + q1 * v b + q2 * w b - (if r = b then 1 else 0) with hE
  have hEb : ∀ b, |E b| ≤ ε := h.basis r
  have key : ∀ x : V3 ℝ, x ⬝ᵥ x = 1 → |E ⬝ᵥ x| ≤ 1733 / 1000 * ε := fun x hx => by
    have sx := sum_abs_le hx
    rw [dotProduct, Fin.sum_univ_three]
    refine (abs_add_three _ _ _).trans ?_
    rw [abs_mul, abs_mul, abs_mul]
    have t : ∀ b, |E b| * |x b| ≤ ε * |x b| := fun b => mul_le_mul_of_nonneg_right (hEb b) (abs_nonneg _)
    have := mul_le_mul_of_nonneg_left sx hε
    linarith [t 0, t 1, t 2]
  have dotE : ∀ x : V3 ℝ, E ⬝ᵥ x = q0 * (u ⬝ᵥ x) + q1 * (v ⬝ᵥ x) + q2 * (w ⬝ᵥ x) - x r := fun x => by
    simp only [hE, dotProduct, Fin.sum_univ_three]
    fin_cases r <;> simp <;> ring
  have h4' : v ⬝ᵥ u = 0 := by rw [dotProduct_comm]; exact f.uv
  have h5' : w ⬝ᵥ u = 0 := by rw [dotProduct_comm]; exact f.uw
  have h6' : w ⬝ᵥ v = 0 := by rw [dotProduct_comm]; exact f.vw
  have ku := key u f.uu
  have kv := key v f.vv
  have kw := key w f.ww
  rw [dotE] at ku kv kw
  rw [f.uu, h4', h5'] at ku
  rw [f.uv, f.vv, h6'] at kv
  rw [f.uw, f.vw, f.ww] at kw
  refine ⟨?_, ?_, ?_⟩
  · convert ku using 2; ring
  · convert kv using 2; ring
  · convert kw using 2; ring

theorem rot01 (h : Shadow fl S ε q u v w d0 d1 d2 o0 o1 o2) {c s δ : ℝ} (hc : c * c + s * s = 1)
    {q' : Fin 3 → ℕ → R} (hf : ∀ r, fl.isFinite (q' r 0) ∧ fl.isFinite (q' r 1)) (h2 : ∀ r, q' r 2 = q r 2)
    (hq : ∀ r, |fl.val (q' r 0) - (c * fl.val (q r 0) - s * fl.val (q r 1))| ≤ δ ∧
      |fl.val (q' r 1) - (s * fl.val (q r 0) + c * fl.val (q r 1))| ≤ δ)
    {D0 D1 D2 O0 O1 O2 : ℝ} (k0 : |D0 - (c * c * d0 + s * s * d1 - c * s * 2 * o0)| ≤ δ)
    (k1 : |D1 - (s * s * d0 + c * c * d1 + c * s * 2 * o0)| ≤ δ) (k2 : |D2 - d2| ≤ δ)
    (k3 : |O0 - (c * s * (d0 - d1) + o0 * (c * c - s * s))| ≤ δ) (k4 : |O1 - (c * o1 + s * o2)| ≤ δ)
    (k5 : |O2 - (c * o2 - s * o1)| ≤ δ) :
    Shadow fl S (ε + 9 * δ) q' (c • u + (-s) • v) (s • u + c • v) w D0 D1 D2 O0 O1 O2 := by
  have F := h.frame.rot01 hc
  have hδ : 0 ≤ δ := (abs_nonneg _).trans k0
  refine ⟨F, fun r n hn => ?_, fun r b => ?_, fun a b => ?_⟩
  · have : n = 0 ∨ n = 1 ∨ n = 2 := by omega
    rcases this with rfl | rfl | rfl
    · exact (hf r).1
    · exact (hf r).2
    · rw [h2]; exact h.fin r 2 (by norm_num)
  · rw [h2]
    have hb := h.basis r b
    obtain ⟨f1, f2, f3⟩ := F.le_one b
    have e1 := mul_le_of_one (hq r).1 f1
    have e2 := mul_le_of_one (hq r).2 f2
    simp only [Pi.add_apply, Pi.smul_apply, smul_eq_mul] at e1 e2 ⊢
    rw [abs_le] at e1 e2 hb ⊢
    have e : (c * fl.val (q r 0) - s * fl.val (q r 1)) * (c * u b + -s * v b) +
        (s * fl.val (q r 0) + c * fl.val (q r 1)) * (s * u b + c * v b) =
        fl.val (q r 0) * u b + fl.val (q r 1) * v b := by
      linear_combination (fl.val (q r 0) * u b + fl.val (q r 1) * v b) * hc
    constructor <;> linarith [e1.1, e1.2, e2.1, e2.2, hb.1, hb.2]
  · have h1 := form_perturb F k0 k1 k2 k3 k4 k5 a b
    rw [form_rot01 hc] at h1
    have h3 := h.recon a b
    rw [abs_le] at h1 h3 ⊢
    constructor <;> linarith [h1.1, h1.2, h3.1, h3.2]

theorem rot12 (h : Shadow fl S ε q u v w d0 d1 d2 o0 o1 o2) {c s δ : ℝ} (hc : c * c + s * s = 1)
    {q' : Fin 3 → ℕ → R} (hf : ∀ r, fl.isFinite (q' r 1) ∧ fl.isFinite (q' r 2)) (h2 : ∀ r, q' r 0 = q r 0)
    (hq : ∀ r, |fl.val (q' r 1) - (c * fl.val (q r 1) - s * fl.val (q r 2))| ≤ δ ∧
      |fl.val (q' r 2) - (s * fl.val (q r 1) + c * fl.val (q r 2))| ≤ δ)
    {D0 D1 D2 O0 O1 O2 : ℝ} (k0 : |D0 - d0| ≤ δ) (k1 : |D1 - (c * c * d1 + s * s * d2 - c * s * 2 * o1)| ≤ δ)
    (k2 : |D2 - (s * s * d1 + c * c * d2 + c * s * 2 * o1)| ≤ δ) (k3 : |O0 - (c * o0 - s * o2)| ≤ δ)
    (k4 : |O1 - (c * s * (d1 - d2) + o1 * (c * c - s * s))| ≤ δ) (k5 : |O2 - (c * o2 + s * o0)| ≤ δ) :
    Shadow fl S (ε + 9 * δ) q' u (c • v + (-s) • w) (s • v + c • w) D0 D1 D2 O0 O1 O2 := by
  have F := h.frame.rot12 hc
  have hδ : 0 ≤ δ := (abs_nonneg _).trans k0
  refine ⟨F, fun r n hn => ?_, fun r b => ?_, fun a b => ?_⟩
  · have : n = 0 ∨ n = 1 ∨ n = 2 := by omega
    rcases this with rfl | rfl | rfl
    · rw [h2]; exact h.fin r 0 (by norm_num)
    · exact (hf r).1
    · exact (hf r).2
  · rw [h2]
    have hb := h.basis r b
    obtain ⟨f1, f2, f3⟩ := F.le_one b
    have e1 := mul_le_of_one (hq r).1 f2
    have e2 := mul_le_of_one (hq r).2 f3
    simp only [Pi.add_apply, Pi.smul_apply, smul_eq_mul] at e1 e2 ⊢
    rw [abs_le] at e1 e2 hb ⊢
    have e : (c * fl.val (q r 1) - s * fl.val (q r 2)) * (c * v b + -s * w b) +
        (s * fl.val (q r 1) + c * fl.val (q r 2)) * (s * v b + c * w b) =
        fl.val (q r 1) * v b + fl.val (q r 2) * w b := by
      linear_combination (fl.val (q r 1) * v b + fl.val (q r 2) * w b) * hc
    constructor <;> linarith [e1.1, e1.2, e2.1, e2.2, hb.1, hb.2]
  · have h1 := form_perturb F k0 k1 k2 k3 k4 k5 a b
    rw [form_rot12 hc] at h1
    have h3 := h.recon a b
    rw [abs_le] at h1 h3 ⊢
    constructor <;> linarith [h1.1, h1.2, h3.1, h3.2]

/-- Setting entries to other values. -/
theorem set (h : Shadow fl S ε q u v w d0 d1 d2 o0 o1 o2) {δ D0 D1 D2 O0 O1 O2 : ℝ} (k0 : |D0 - d0| ≤ δ)
    (k1 : |D1 - d1| ≤ δ) (k2 : |D2 - d2| ≤ δ) (k3 : |O0 - o0| ≤ δ) (k4 : |O1 - o1| ≤ δ) (k5 : |O2 - o2| ≤ δ) :
    Shadow fl S (ε + 9 * δ) q u v w D0 D1 D2 O0 O1 O2 := by
  have hδ : 0 ≤ δ := (abs_nonneg _).trans k0
  refine ⟨h.frame, h.fin, fun r b => (h.basis r b).trans (by linarith), fun a b => ?_⟩
  have h1 := form_perturb h.frame k0 k1 k2 k3 k4 k5 a b
  have h3 := h.recon a b
  rw [abs_le] at h1 h3 ⊢
  constructor <;> linarith [h1.1, h1.2, h3.1, h3.2]

end Shadow
end Svd3
end CamGeom

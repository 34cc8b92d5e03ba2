import Verif.Spec.Ieee
import Verif.Model.RealScalar

/-!
# A model of the IEEE laws: extended reals with signed zeros and NaN

Infinitely precise IEEE arithmetic; witnesses that `Ieee` is satisfiable.
-/

namespace CamGeom

/-- Reals (`num 0` is `+0`), `-0`, the two infinities and NaN (witness, not part of `/repo`). -/
inductive XR
  | num (r : ℝ)
  | negZero
  | inf (neg : Bool)
  | nan

namespace XR

/-- Sign bit (of a value that is not NaN). -/
noncomputable def neg? : XR → Bool
  | num r => decide (r < 0)
  | negZero => true
  | inf n => n
  | nan => false

/-- Real value of a finite number. -/
noncomputable def val : XR → ℝ
  | num r => r
  | _ => 0

/-- A finite result with sign bit `n` when it is zero. -/
noncomputable def mk (n : Bool) (r : ℝ) : XR :=
  open Classical in if r = 0 then (if n then negZero else num 0) else num r

/-- Negation. -/
noncomputable def neg : XR → XR
  | num r => mk (!decide (r < 0)) (-r)
  | negZero => num 0
  | inf n => inf !n
  | nan => nan

/-- Addition. -/
noncomputable def add : XR → XR → XR
  | nan, _ => nan
  | _, nan => nan
  | inf a, inf b => if a = b then inf a else nan
  | inf a, _ => inf a
  | _, inf b => inf b
  | negZero, negZero => negZero
  | negZero, num r => num r
  | num r, negZero => num r
  | num r, num s => num (r + s)

/-- Multiplication. -/
noncomputable def mul : XR → XR → XR
  | nan, _ => nan
  | _, nan => nan
  | inf a, inf b => inf (a ^^ b)
  | inf a, y => open Classical in if y.val = 0 then nan else inf (a ^^ y.neg?)
  | x, inf b => open Classical in if x.val = 0 then nan else inf (x.neg? ^^ b)
  | x, y => mk (x.neg? ^^ y.neg?) (x.val * y.val)

/-- Division. -/
noncomputable def div : XR → XR → XR
  | nan, _ => nan
  | _, nan => nan
  | inf _, inf _ => nan
  | inf a, y => inf (a ^^ y.neg?)
  | x, inf b => mk (x.neg? ^^ b) 0
  | x, y => open Classical in
    if y.val = 0 then (if x.val = 0 then nan else inf (x.neg? ^^ y.neg?))
    else mk (x.neg? ^^ y.neg?) (x.val / y.val)

/-- Power with a natural exponent by repeated multiplication. -/
noncomputable def npow (x : XR) : ℕ → XR
  | 0 => num 1
  | 1 => x
  | n + 2 => mul x (npow x (n + 1))

/-- Witness scalar type for the laws `Ieee`. -/
noncomputable instance : Scalar XR where
  add := add
  sub a b := add a (neg b)
  mul := mul
  div := div
  neg := neg
  zero := num 0
  one := num 1
  lit q := num q
  pi := num Real.pi
  sqrt
    | num r => open Classical in if r < 0 then nan else num (Real.sqrt r)
    | negZero => negZero
    | inf true => nan
    | inf false => inf false
    | nan => nan
  sin
    | num r => num (Real.sin r)
    | negZero => negZero
    | _ => nan
  cos
    | num r => num (Real.cos r)
    | negZero => num 1
    | _ => nan
  powi x n := if 0 ≤ n then npow x n.toNat else div (num 1) (npow x (-n).toNat)
  abs
    | num r => num |r|
    | negZero => num 0
    | inf _ => inf false
    | nan => nan
  lt
    | nan, _ => false
    | _, nan => false
    | inf a, inf b => a && !b
    | inf a, _ => a
    | _, inf b => !b
    | x, y => open Classical in decide (x.val < y.val)
  le
    | nan, _ => false
    | _, nan => false
    | inf a, inf b => a || !b
    | inf a, _ => a
    | _, inf b => !b
    | x, y => open Classical in decide (x.val ≤ y.val)
  beq
    | nan, _ => false
    | _, nan => false
    | inf a, inf b => a == b
    | inf _, _ => false
    | _, inf _ => false
    | x, y => open Classical in decide (x.val = y.val)
  isInf
    | inf _ => true
    | _ => false

/-- Zeros of `XR`. -/
def IsZero : XR → Prop
  | num r => r = 0
  | negZero => True
  | _ => False

/-- Finite values of `XR`. -/
def IsFinite : XR → Prop
  | num _ => True
  | negZero => True
  | _ => False

/-- NaN of `XR`. -/
def IsNan : XR → Prop
  | nan => True
  | _ => False

@[simp] theorem isZero_num (r : ℝ) : IsZero (num r) ↔ r = 0 := Iff.rfl
@[simp] theorem isZero_negZero : IsZero negZero := trivial
@[simp] theorem isZero_inf (b : Bool) : ¬ IsZero (inf b) := id
@[simp] theorem isZero_nan : ¬ IsZero nan := id
@[simp] theorem isFinite_num (r : ℝ) : IsFinite (num r) := trivial
@[simp] theorem isFinite_negZero : IsFinite negZero := trivial
@[simp] theorem isFinite_inf (b : Bool) : ¬ IsFinite (inf b) := id
@[simp] theorem isFinite_nan : ¬ IsFinite nan := id
@[simp] theorem isNan_num (r : ℝ) : ¬ IsNan (num r) := id
@[simp] theorem isNan_negZero : ¬ IsNan negZero := id
@[simp] theorem isNan_inf (b : Bool) : ¬ IsNan (inf b) := id
@[simp] theorem isNan_nan : IsNan nan := trivial

theorem add_def (x y : XR) : x + y = add x y := rfl
theorem sub_def (x y : XR) : x - y = add x (neg y) := rfl
theorem mul_def (x y : XR) : x * y = mul x y := rfl
theorem div_def (x y : XR) : x / y = div x y := rfl
theorem neg_def (x : XR) : -x = neg x := rfl
theorem lit_def (q : ℚ) : (Scalar.lit q : XR) = num q := rfl
theorem zero_def : (0 : XR) = num 0 := rfl
theorem one_def : (1 : XR) = num 1 := rfl
theorem powi_def (x : XR) (n : ℤ) :
    Scalar.powi x n = if 0 ≤ n then npow x n.toNat else div (num 1) (npow x (-n).toNat) := rfl

theorem sqrt_num (r : ℝ) : (Scalar.sqrt (num r) : XR) =
    open Classical in if r < 0 then nan else num (Real.sqrt r) := rfl
theorem sqrt_negZero : (Scalar.sqrt negZero : XR) = negZero := rfl
theorem sqrt_neg_inf : (Scalar.sqrt (inf true) : XR) = nan := rfl
theorem sqrt_pos_inf : (Scalar.sqrt (inf false) : XR) = inf false := rfl
theorem sqrt_nan : (Scalar.sqrt nan : XR) = nan := rfl

theorem npow_nan : ∀ n, n ≠ 0 → IsNan (npow nan n)
  | 0, h => absurd rfl h
  | 1, _ => trivial
  | n + 2, _ => by simp [npow, mul]

@[simp] theorem mk_finite (n : Bool) (r : ℝ) : IsFinite (mk n r) := by
  unfold mk; split_ifs <;> trivial

@[simp] theorem mk_isZero (n : Bool) (r : ℝ) : IsZero (mk n r) ↔ r = 0 := by
  unfold mk; split_ifs with h1 h2 <;> simp [h1]

theorem neg_inf' {x : XR} (h : ¬ IsFinite x) : ¬ IsFinite (neg x) := by
  cases x <;> simp_all [neg]

theorem add_inf_left' {x y : XR} (h : ¬ IsFinite x) : ¬ IsFinite (add x y) := by
  cases x <;> cases y <;> simp_all [add]
  split_ifs <;> simp

theorem add_inf_right' {x y : XR} (h : ¬ IsFinite y) : ¬ IsFinite (add x y) := by
  cases x <;> cases y <;> simp_all [add]
  split_ifs <;> simp

theorem ite_not_finite (c : Prop) [Decidable c] (b : Bool) :
    ¬ IsFinite (if c then nan else inf b) := by
  by_cases h : c <;> simp [h]

/-- The extended reals satisfy the laws. -/
noncomputable def ieee : Ieee XR where
  isZero := IsZero
  isFinite := IsFinite
  isNan := IsNan
  zero_finite := by intro x; cases x <;> simp
  nan_not_finite := by intro x; cases x <;> simp
  lit_zero := by simp [lit_def]
  zero_zero := by simp [zero_def]
  lit_one_finite := by simp [lit_def]
  one_finite := by simp [one_def]
  zero_neg := by intro x; cases x <;> simp [neg_def, neg]
  zero_add := by
    intro x y; cases x <;> cases y <;> simp +contextual [add_def, add]
  zero_mul := by
    intro x y; cases x <;> cases y <;> simp +contextual [mul_def, mul, val]
  mul_zero := by
    intro x y; cases x <;> cases y <;> simp +contextual [mul_def, mul, val]
  zero_div_zero := by
    intro x y; cases x <;> cases y <;> simp +contextual [div_def, div, val]
  div_zero := by
    intro x y hy
    cases x <;> cases y <;> simp_all [div_def, div, val] <;> exact ite_not_finite _ _
  zero_mul_inf := by
    intro x y; cases x <;> cases y <;> simp +contextual [mul_def, mul, val]
  neg_inf := neg_inf'
  add_inf_left := add_inf_left'
  add_inf_right := add_inf_right'
  sub_inf_left := add_inf_left'
  sub_inf_right := fun h => add_inf_right' (neg_inf' h)
  mul_inf_left := by
    intro x y h
    cases x <;> cases y <;> simp_all [mul_def, mul] <;> split_ifs <;> simp
  mul_inf_right := by
    intro x y h
    cases x <;> cases y <;> simp_all [mul_def, mul] <;> split_ifs <;> simp
  div_inf_left := by
    intro x y h; cases x <;> cases y <;> simp_all [div_def, div]
  inf_div_inf := by
    intro x y; cases x <;> cases y <;> simp [div_def, div]
  neg_nan := by intro x; cases x <;> simp [neg_def, neg]
  add_nan_left := by intro x y; cases x <;> cases y <;> simp [add_def, add]
  add_nan_right := by intro x y; cases x <;> cases y <;> simp [add_def, add]
  mul_nan_left := by intro x y; cases x <;> cases y <;> simp [mul_def, mul]
  mul_nan_right := by intro x y; cases x <;> cases y <;> simp [mul_def, mul]
  div_nan_left := by intro x y; cases x <;> cases y <;> simp [div_def, div]
  div_nan_right := by intro x y; cases x <;> cases y <;> simp [div_def, div]
  powi_nan := by
    intro x n hn hx
    cases x with
    | num r => cases hx
    | negZero => cases hx
    | inf b => cases hx
    | nan =>
      rw [powi_def]
      split_ifs with h
      · exact npow_nan _ (by omega)
      · have h2 := npow_nan (-n).toNat (by omega)
        revert h2
        generalize npow nan (-n).toNat = y
        cases y <;> simp [div]
  sqrt_zero := by
    intro x
    cases x with
    | num r =>
      intro h
      rw [isZero_num] at h
      subst h
      simp [sqrt_num]
    | negZero => simp [sqrt_negZero]
    | inf b => intro h; cases h
    | nan => intro h; cases h
  sqrt_inf := by
    intro x
    cases x with
    | num r => simp
    | negZero => simp
    | inf b => cases b <;> simp [sqrt_neg_inf, sqrt_pos_inf]
    | nan => simp [sqrt_nan]
  one_mul := by
    intro x hx
    cases x with
    | num r =>
      by_cases hr : r = 0
      · simp [lit_def, mul_def, mul, val, mk, neg?, hr]
      · simp [lit_def, mul_def, mul, val, mk, hr]
    | negZero => simp [lit_def, mul_def, mul, val, mk, neg?]
    | inf b => cases hx
    | nan => cases hx
  zero_add_eq := by
    intro x y; cases x <;> cases y <;> simp +contextual [add_def, add]
  div_self := by
    intro x; cases x <;> simp +contextual [div_def, div, val, mk, lit_def]
  neg_finite := by intro x; cases x <;> simp [neg_def, neg]
  neg_not_zero := by
    intro x; cases x <;> simp [neg_def, neg]

theorem zeros : ieee.Zeros where
  zero_sub := by
    intro x y hx hy
    exact ieee.zero_add hx (ieee.zero_neg hy)
  sub_self := by
    intro x hx
    cases x with
    | num r =>
      by_cases hr : r = 0
      · simp [sub_def, neg, mk, add, ieee, hr]
      · simp [sub_def, neg, mk, add, ieee, hr]
    | negZero => simp [sub_def, neg, add, ieee]
    | inf b => cases hx
    | nan => cases hx
  zero_div := by
    intro x y hx hy hn
    change IsZero (div x y)
    change IsZero x at hx
    change ¬ IsZero y at hy
    change ¬ IsNan y at hn
    cases x <;> cases y <;> simp_all [div, val]
  div_inf := by
    intro x y hx hy hn
    change IsZero (div x y)
    change IsFinite x at hx
    change ¬ IsFinite y at hy
    change ¬ IsNan y at hn
    cases x <;> cases y <;> simp_all [div]

end XR
end CamGeom

import Verif.Model.Scalar
import Mathlib.Data.Int.Log
import Mathlib.Algebra.Order.Archimedean.Real.Basic
import Mathlib.Analysis.Real.Pi.Bounds
import Mathlib.Analysis.Real.Sqrt

/-!
# `f32` and `f64`

Every type and function of `/repo/src` is generic over `R: RealField`, that is `f32` or `f64` (both are
tested, `/repo/src/extrinsics.rs:382-389`); `ray_intersection.rs` computes in `f64` whatever `R` is.  This file defines
the two types as IEEE 754 binary formats: signed zeros, subnormal numbers, infinities and NaN;
`+ - * /` and square root are the exact result rounded to nearest, ties to even, with overflow to
infinity and gradual underflow; comparisons treat NaN as unordered and the two zeros as equal.

Simplifications: all NaNs are one value (the crate never looks at sign or payload of a NaN); sine and
cosine, whose accuracy Rust leaves open, are parameters (`Libm`).
-/

namespace CamGeom

/-- A binary interchange format of IEEE 754: numbers have `p` significant bits and are less than `2^emax`
(scalar types of `/repo/src`, see the header). -/
structure Format where
  p : ℕ
  emax : ℤ
  three_le_p : 3 ≤ p
  p_lt : p < emax

/-- binary64, Rust's `f64` (`/repo/src/ray_intersection.rs:15-36`) -/
def Format.b64 : Format := ⟨53, 1024, by norm_num, by norm_num⟩

/-- binary32, Rust's `f32` (used for instance at `/repo/src/camera.rs:366`) -/
def Format.b32 : Format := ⟨24, 128, by norm_num, by norm_num⟩

/-- Exponent of the least positive number, for instance `2^-1074` for `f64` (IEEE 754, section 3.3). -/
def Format.emin (f : Format) : ℤ := 3 - f.emax - f.p

/-- Magnitudes of the finite numbers of a format: `m * 2^e` with an integer `m` of at most `p` bits
(IEEE 754, section 3.3). -/
def Format.Mag (f : Format) (x : ℝ) : Prop :=
  x < 2 ^ f.emax ∧ ∃ (m : ℕ) (e : ℤ), m < 2 ^ f.p ∧ f.emin ≤ e ∧ x = m * 2 ^ e

/-- The numbers of a format (scalar types of `/repo/src`, see the header). -/
inductive Flt (f : Format)
  /-- `x` or, with the sign bit set, `-x` -/
  | num (neg : Bool) (x : ℝ) (h : f.Mag x)
  | inf (neg : Bool)
  | nan

/-- Nearest integer, ties to even (IEEE 754, section 4.3.1). -/
noncomputable def nearestEven (y : ℝ) : ℤ :=
  open Classical in
  if y - ⌊y⌋ < 1 / 2 then ⌊y⌋
  else if 1 / 2 < y - ⌊y⌋ then ⌊y⌋ + 1
  else if Even ⌊y⌋ then ⌊y⌋ else ⌊y⌋ + 1

namespace Format

/-- Exponent of the last place of a magnitude: `p` significant bits, but never less than `2^emin`
(gradual underflow). -/
noncomputable def lastPlace (f : Format) (x : ℝ) : ℤ := max (Int.log 2 x - f.p + 1) f.emin

/-- Nearest magnitude, ignoring overflow (IEEE 754, section 4.3.1). -/
noncomputable def rnd (f : Format) (x : ℝ) : ℝ :=
  nearestEven (x / 2 ^ f.lastPlace x) * 2 ^ f.lastPlace x

end Format

namespace Flt

variable {f g : Format}

/-- Real number represented by a finite number; zero for infinities and NaN. -/
def val : Flt f → ℝ
  | num neg x _ => if neg then -x else x
  | inf _ => 0
  | nan => 0

/-- Neither infinite nor NaN. -/
def isFinite : Flt f → Prop
  | num _ _ _ => True
  | _ => False

/-- The sign bit. -/
def neg? : Flt f → Bool
  | num neg _ _ => neg
  | inf neg => neg
  | nan => false

open Classical in
/-- Round a real number to the format; `z` is the sign of a zero that is not the result of rounding
(IEEE 754, sections 4.3.1, 6.3 and 7.4). -/
noncomputable def ofReal (f : Format) (z : Bool) (x : ℝ) : Flt f :=
  let s := if x = 0 then z else decide (x < 0)
  if h : f.Mag (f.rnd |x|) then num s (f.rnd |x|) h else inf s

/-- Unary minus. -/
def neg : Flt f → Flt f
  | num s x h => num (!s) x h
  | inf s => inf (!s)
  | nan => nan

/-- `f64::abs`. -/
def abs : Flt f → Flt f
  | num _ x h => num false x h
  | inf _ => inf false
  | nan => nan

open Classical in
/-- Addition; an exact zero sum is `-0` only if both operands are negative (IEEE 754, section 6.3). -/
noncomputable def add : Flt f → Flt f → Flt f
  | nan, _ => nan
  | _, nan => nan
  | inf s, inf t => if s = t then inf s else nan
  | inf s, _ => inf s
  | _, inf t => inf t
  | num s x h, num t y k => ofReal f (s && t) (val (num s x h) + val (num t y k))

open Classical in
/-- Multiplication. -/
noncomputable def mul : Flt f → Flt f → Flt f
  | nan, _ => nan
  | _, nan => nan
  | inf s, inf t => inf (xor s t)
  | inf s, num t y _ => if y = 0 then nan else inf (xor s t)
  | num s x _, inf t => if x = 0 then nan else inf (xor s t)
  | num s x h, num t y k => ofReal f (xor s t) (val (num s x h) * val (num t y k))

open Classical in
/-- Division. -/
noncomputable def div : Flt f → Flt f → Flt f
  | nan, _ => nan
  | _, nan => nan
  | inf _, inf _ => nan
  | inf s, num t _ _ => inf (xor s t)
  | num s _ _, inf t => ofReal f (xor s t) 0
  | num s x h, num t y k =>
    if y = 0 then if x = 0 then nan else inf (xor s t)
    else ofReal f (xor s t) (val (num s x h) / val (num t y k))

open Classical in
/-- `f64::sqrt`; `sqrt(-0) = -0`. -/
noncomputable def sqrt : Flt f → Flt f
  | nan => nan
  | inf s => if s then nan else inf false
  | num s x h => if val (num s x h) < 0 then nan else ofReal f s (Real.sqrt x)

open Classical in
/-- `<`. -/
noncomputable def lt : Flt f → Flt f → Bool
  | nan, _ => false
  | _, nan => false
  | inf s, inf t => s && !t
  | inf s, num _ _ _ => s
  | num _ _ _, inf t => !t
  | num s x h, num t y k => decide (val (num s x h) < val (num t y k))

open Classical in
/-- `==`. -/
noncomputable def beq : Flt f → Flt f → Bool
  | inf s, inf t => s == t
  | num s x h, num t y k => decide (val (num s x h) = val (num t y k))
  | _, _ => false

/-- `<=`. -/
noncomputable def le (x y : Flt f) : Bool := lt x y || beq x y

/-- `f64::is_infinite`. -/
def isInf : Flt f → Bool
  | inf _ => true
  | _ => false

/-- Conversion between formats, `as` (`na::convert` and `na::try_convert` in
`/repo/src/ray_intersection.rs:18,25,33,143,152,161`; exact to a wider format). -/
noncomputable def cast (g : Format) : Flt f → Flt g
  | nan => nan
  | inf s => inf s
  | num s x h => ofReal g s (val (num s x h))

/-- An `f64` literal converted to the format, `na::convert(1.0)` (`/repo/src/camera.rs:165`). -/
noncomputable def ofF64 (f : Format) (x : ℝ) : Flt f := cast f (ofReal Format.b64 false x)

/-- The loop of `powi`: `r * a^n` by repeated squaring, where `n` has at most `k` bits (compiler-rt's
`__powidf2`; `k` is fuel). -/
noncomputable def powLoop : ℕ → ℕ → Flt f → Flt f → Flt f
  | 0, _, _, r => r
  | k + 1, n, a, r =>
    let r' := if n % 2 = 1 then mul r a else r
    if n / 2 = 0 then r' else powLoop k (n / 2) (mul a a) r'

/-- `f64::powi` (`/repo/src/linearize.rs:54`, `/repo/src/ray_intersection.rs:100,104,108`): repeated squaring,
followed by a reciprocal for a negative exponent. -/
noncomputable def powi (x : Flt f) (n : ℤ) : Flt f :=
  let r := powLoop (n.natAbs + 1) n.natAbs x (ofReal f false 1)
  if n < 0 then div (ofReal f false 1) r else r

end Flt

/-- An implementation of sine and cosine for a format; Rust leaves their accuracy open (used at
`/repo/src/extrinsics.rs:115` via `UnitQuaternion::from_axis_angle`). -/
structure Libm (f : Format) where
  sin : Flt f → Flt f
  cos : Flt f → Flt f

/-- The floating-point type of a format with the given sine and cosine. -/
def RustFloat (f : Format) (_ : Libm f) : Type := Flt f

/-- Rust's `f64`. -/
abbrev F64 (lib : Libm Format.b64) : Type := RustFloat Format.b64 lib

/-- Rust's `f32`. -/
abbrev F32 (lib : Libm Format.b32) : Type := RustFloat Format.b32 lib

/-- The scalar operations of a floating-point type (`R: RealField` throughout `/repo/src`); subtraction is
addition of the negated number (IEEE 754, section 5.4.1). -/
noncomputable instance instScalarFloat (f : Format) (lib : Libm f) : Scalar (RustFloat f lib) where
  add x y := Flt.add (f := f) x y
  sub x y := Flt.add (f := f) x (Flt.neg y)
  mul x y := Flt.mul (f := f) x y
  div x y := Flt.div (f := f) x y
  neg x := Flt.neg (f := f) x
  zero := Flt.ofReal f false 0
  one := Flt.ofReal f false 1
  lit q := Flt.ofF64 f q
  pi := Flt.ofF64 f Real.pi
  sqrt x := Flt.sqrt (f := f) x
  sin := lib.sin
  cos := lib.cos
  powi x n := Flt.powi (f := f) x n
  abs x := Flt.abs (f := f) x
  lt x y := Flt.lt (f := f) x y
  le x y := Flt.le (f := f) x y
  beq x y := Flt.beq (f := f) x y
  isInf x := Flt.isInf (f := f) x

/-- Conversions between a floating-point type and `f64` (`/repo/src/ray_intersection.rs:15-36`); for floats
`try_convert` never fails. -/
noncomputable instance instF64ConvFloat (f : Format) (lib : Libm f) (lib' : Libm Format.b64) :
    F64Conv (RustFloat f lib) (F64 lib') where
  toF64 x := some (Flt.cast (f := f) Format.b64 x)
  ofF64 y := Flt.cast (f := Format.b64) f y

end CamGeom
